import Verif.Model.ElPhHeader
import Verif.Spec.ElPhHeader
import Verif.Proofs.ElPhRead
import Verif.Props.Mpi

namespace Verif.Model
open Verif.Spec

/-- The block of a list that belongs to a share. -/
def blockOf {α : Type} (l : List α) (ps r : Nat) : List α :=
  (l.drop (head l.length ps r)).take (head l.length ps (r + 1) - head l.length ps r)

theorem mapOutcome_block {α : Type} (l : List α) (a m : Nat) (h : a + m ≤ l.length) :
    mapOutcome (readAt l) (List.range' a m) = .ok ((l.drop a).take m) := by
  induction m generalizing a with
  | zero => rfl
  | succ m ih =>
    rw [List.range'_succ, mapOutcome, show readAt l a = .ok l[a] by simp [readAt, List.getElem?_eq_getElem (show a < l.length by omega)], ih (a + 1) (by omega),
      List.drop_eq_getElem_cons (show a < l.length by omega)]
    rfl

theorem interRoot_val (size ps rank : Nat) (hps : 0 < ps) (hr : rank < size) :
    interRoot size ps rank = some (rank % ps) := by
  unfold interRoot
  rw [List.find?_eq_some_iff_getElem]
  have hle : rank % ps ≤ rank := Nat.mod_le _ _
  refine ⟨by simp, rank % ps, by simp; omega, by simp, ?_⟩
  intro j hj
  have hj' : j < ps := by have := Nat.mod_lt rank hps; omega
  have : j % ps = j := Nat.mod_eq_of_lt hj'
  simp only [List.getElem_range, this, Bool.not_eq_true', beq_eq_false_iff_ne]
  omega

theorem headPool_val {V D : Type} (f : ElPhFile V D) (r ps : Nat) (hr : r < ps) (hf : ElPhFileFits f ps) :
    headPoolHeader f r ps = .ok ⟨f.numElBands, f.numPhModes, f.elVectors.length, blockOf f.elVectors ps r, f.phVectors,
      (if 1 < ps then List.range' (head f.elVectors.length ps r)
        (head f.elVectors.length ps (r + 1) - head f.elVectors.length ps r) else []),
      blockOf f.elDegeneracies ps r, f.phDegeneracies, f.numElectrons⟩ := by
  have hle : head f.elVectors.length ps (r + 1) ≤ f.elVectors.length := head_le hr (by omega)
  have hm : head f.elVectors.length ps r ≤ head f.elVectors.length ps (r + 1) := head_mono _ _ (Nat.le_succ r)
  unfold headPoolHeader
  simp only [← hf.electrons]
  by_cases h1 : 1 < ps
  · rw [if_pos h1, divideWorkIter_val hf.fits hr]
    simp only [Outcome.bind_eq, Outcome.bind_ok]
    rw [mapOutcome_block _ _ _ (by rw [← hf.electrons]; omega)]
    simp only [Outcome.bind_ok]
    rw [mapOutcome_block _ _ _ (by omega)]
    simp only [Outcome.bind_ok, if_pos h1, blockOf, hf.electrons]
  · obtain rfl : ps = 1 := by omega
    obtain rfl : r = 0 := by omega
    rw [if_neg h1]
    simp [blockOf, head, ← hf.electrons]

theorem blockOf_length {α : Type} (l : List α) (ps r : Nat) (hr : r < ps) :
    (blockOf l ps r).length = head l.length ps (r + 1) - head l.length ps r := by
  have hle : head l.length ps (r + 1) ≤ l.length := head_le hr (by omega)
  unfold blockOf
  rw [List.length_take, List.length_drop]
  omega

theorem blockOf_getElem? {α : Type} (l : List α) (ps r i : Nat)
    (hi : i < head l.length ps (r + 1) - head l.length ps r) :
    (blockOf l ps r)[i]? = l[head l.length ps r + i]? := by
  unfold blockOf
  rw [List.getElem?_take_of_lt hi, List.getElem?_drop]

/-- The blocks of all the processes, one after the other, are the list. -/
theorem blocks_all {α : Type} (l : List α) (ps : Nat) (hps : 0 < ps) :
    (List.range ps).flatMap (blockOf l ps) = l := by
  have step : ∀ k, (List.range k).flatMap (blockOf l ps) = l.take (head l.length ps k) := by
    intro k
    induction k with
    | zero => simp [head]
    | succ k ih =>
      have hm : head l.length ps k ≤ head l.length ps (k + 1) := head_mono _ _ (Nat.le_succ k)
      rw [List.range_succ, List.flatMap_append, ih, List.flatMap_cons, List.flatMap_nil, List.append_nil]
      unfold blockOf
      conv_rhs => rw [show head l.length ps (k + 1) =
        head l.length ps k + (head l.length ps (k + 1) - head l.length ps k) by omega, List.take_add]
  rw [step, head_last _ _ hps, List.take_length]

/-- The header of any process. -/
theorem elphHeader_val {V D : Type} (f : ElPhFile V D) (size ps rank : Nat) (hps : 0 < ps) (hd : ps ∣ size)
    (hr : rank < size) (hf : ElPhFileFits f ps) :
    ∃ w, (1 < ps → divideWorkIter f.elVectors.length (rank % ps) ps = .ok w) ∧
      elphHeader f size ps rank = .ok ⟨f.numElBands, f.numPhModes, f.elVectors.length,
        blockOf f.elVectors ps (rank % ps), f.phVectors, w, blockOf f.elDegeneracies ps (rank % ps), f.phDegeneracies,
        f.numElectrons⟩ := by
  have hmod : rank % ps < ps := Nat.mod_lt _ hps
  have hle : rank % ps ≤ rank := Nat.mod_le _ _
  have hb : ∀ {α : Type} (x : List α), bcastInto x.length x = .ok x := fun x => by simp [bcastInto]
  have hl : (blockOf f.elDegeneracies ps (rank % ps)).length = (blockOf f.elVectors ps (rank % ps)).length := by
    rw [blockOf_length _ _ _ hmod, blockOf_length _ _ _ hmod, hf.electrons]
  unfold elphHeader
  rw [Props.C08_accepts size ps rank hps hd hr, interRoot_val size ps rank hps hr]
  simp only [Outcome.bind_eq, Outcome.bind_ok]
  rw [Props.C08_accepts size ps (rank % ps) hps hd (by omega)]
  simp only [Outcome.bind_ok, Nat.mod_mod, Nat.div_eq_of_lt hmod, ne_eq, not_true_eq_false, if_false]
  rw [headPool_val f _ ps hmod hf]
  simp only [Outcome.bind_ok, if_neg hf.unpolarised]
  by_cases h0 : rank / ps = 0
  · rw [if_pos h0]
    simp only [Outcome.bind_ok, hb]
    refine ⟨_, fun h1 => ?_, rfl⟩
    rw [if_pos h1, divideWorkIter_val hf.fits hmod]
  · rw [if_neg h0, divideWorkIter_val hf.fits hmod]
    simp only [Outcome.bind_ok]
    refine ⟨List.range' (head f.elVectors.length ps (rank % ps))
      (head f.elVectors.length ps (rank % ps + 1) - head f.elVectors.length ps (rank % ps)), fun _ => rfl, ?_⟩
    have e : bcastInto (blockOf f.elDegeneracies ps (rank % ps)).length (blockOf f.elVectors ps (rank % ps)) =
        .ok (blockOf f.elVectors ps (rank % ps)) := by rw [hl, hb]
    have e' : bcastInto f.phVectors.length f.phDegeneracies = .ok f.phDegeneracies := by rw [hf.phonons, hb]
    simp only [e, e', hb, Outcome.bind_ok]

theorem elementsOf_block_getElem? {α : Type} (g : Nat → Nat → α) (perBV a m i j : Nat) (hi : i < m) (hj : j < perBV) :
    (elementsOf g perBV (List.range' a m))[i * perBV + j]? = some (g (a + i) j) := by
  induction m generalizing a i with
  | zero => omega
  | succ m ih =>
    have e : elementsOf g perBV (List.range' a (m + 1)) =
        (List.range perBV).map (g a) ++ elementsOf g perBV (List.range' (a + 1) m) := by
      rw [List.range'_succ]; rfl
    rw [e]
    cases i with
    | zero =>
      rw [List.getElem?_append_left (by simpa using hj)]
      simp [hj]
    | succ i =>
      rw [List.getElem?_append_right (by simp; nlinarith)]
      have : (i + 1) * perBV + j - ((List.range perBV).map (g a)).length = i * perBV + j := by
        rw [List.length_map, List.length_range, Nat.add_mul]
        omega
      rw [this, ih (a + 1) i (by omega)]
      congr 2
      omega

end Verif.Model
