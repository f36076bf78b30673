import Verif.Model.ActiveBuild
import Verif.Proofs.Bands
import Verif.Proofs.Mpi

/-! Lemmas for the selection of the active states. -/
namespace Verif.Model

/-- Serial scan. -/
def serialScan {β : Type} (sel : Nat → Option β) (pts : List Nat) : List (Nat × β) :=
  pts.filterMap fun ik => (sel ik).map fun b => (ik, b)

theorem serialScan_append {β : Type} (sel : Nat → Option β) (a b : List Nat) :
    serialScan sel (a ++ b) = serialScan sel a ++ serialScan sel b := List.filterMap_append

theorem scanOne_eq {β : Type} (sel : Nat → Option β) (found : List (Nat × β)) (ik : Nat) :
    scanOne sel found ik = found ++ serialScan sel [ik] := by
  unfold scanOne serialScan
  cases h : sel ik <;> simp [h]

/-- Invariant of the parallel region. -/
structure ScanInv {β : Type} (sel : Nat → Option β) (chunks : List (List Nat)) (s : ScanState β) : Prop where
  len : s.threads.length = chunks.length
  next_le : s.next ≤ chunks.length
  thr : ∀ (i : Nat) t, s.threads[i]? = some t → ∃ c, chunks[i]? = some c ∧
    t.found ++ serialScan sel t.todo = serialScan sel c
  merged : s.merged = serialScan sel (chunks.take s.next).flatten

theorem scanInv_step {β : Type} (sel : Nat → Option β) (chunks : List (List Nat)) (s s' : ScanState β)
    (h : ScanInv sel chunks s) (hs : ScanStep sel s s') : ScanInv sel chunks s' := by
  cases hs with
  | scan i ik rest found hi =>
    refine ⟨by simpa using h.len, h.next_le, ?_, h.merged⟩
    intro j t hj
    simp only at hj
    by_cases hji : i = j
    · subst hji
      obtain ⟨hl, _⟩ := List.getElem?_eq_some_iff.mp hi
      rw [List.getElem?_set_self hl] at hj
      cases hj
      obtain ⟨c, hc, he⟩ := h.thr i _ hi
      refine ⟨c, hc, ?_⟩
      rw [← he]
      simp only
      rw [scanOne_eq, List.append_assoc, ← serialScan_append]
      rfl
    · rw [List.getElem?_set_ne hji] at hj
      exact h.thr j t hj
  | merge found hf =>
    obtain ⟨c, hc, he⟩ := h.thr _ _ hf
    obtain ⟨hl, hce⟩ := List.getElem?_eq_some_iff.mp hc
    refine ⟨h.len, hl, h.thr, ?_⟩
    simp only
    rw [h.merged, List.take_succ, hc]
    simp only [Option.toList_some, List.flatten_append, List.flatten_cons, List.flatten_nil, List.append_nil]
    rw [serialScan_append, ← he]
    simp [serialScan]

theorem scanRun_eq {β : Type} (sel : Nat → Option β) (chunks : List (List Nat)) (merged : List (Nat × β))
    (h : ScanRun sel chunks merged) : merged = serialScan sel chunks.flatten := by
  obtain ⟨s, hr, hn, rfl⟩ := h
  have h0 : ScanInv sel chunks (scanStart chunks) := by
    refine ⟨by simp [scanStart], by simp [scanStart], ?_, by simp [scanStart, serialScan]⟩
    intro i t hi
    simp only [scanStart, List.getElem?_map] at hi
    cases hc : chunks[i]? with
    | none => rw [hc] at hi; simp at hi
    | some c =>
      rw [hc] at hi
      simp at hi
      subst hi
      exact ⟨c, rfl, by simp⟩
  have hinv : ScanInv sel chunks s := by
    clear hn
    induction hr with
    | refl => exact h0
    | tail _ hstep ih => exact scanInv_step sel chunks _ _ ih hstep
  rw [hinv.merged, hn, hinv.len, List.take_length]

theorem allReduceSum1_get {α : Type} [AddMonoid α] (bufs : List (Nat → α)) (r : Nat)
    (hr : r < (allReduceSum1 bufs).length) (i : Nat) (v : α) (h : (bufs.map fun b => b i).sum = v) :
    (allReduceSum1 bufs)[r] i = v := by
  have key : ∀ (l : List (Nat → α)) (hl : r < l.length), allReduceSum1 bufs = l → l[r] i = v →
      (allReduceSum1 bufs)[r] i = v := by
    rintro l hl rfl h; exact h
  by_cases h1 : bufs.length = 1
  · obtain ⟨b, rfl⟩ := List.length_eq_one_iff.mp h1
    have he : allReduceSum1 [b] = [b] := by simp [allReduceSum1]
    have hr' : r < [b].length := by rw [← he]; exact hr
    refine key [b] hr' he ?_
    have hr0 : r = 0 := by simpa using hr'
    subst hr0
    simpa using h
  · have he : allReduceSum1 bufs = bufs.map (fun _ => mpiSum bufs) := by simp [allReduceSum1, h1]
    refine key _ (by rw [← he]; exact hr) he ?_
    rw [List.getElem_map, mpiSum_eq, h]

theorem displacement_eq (counts : List Nat) (i : Nat) : displacement counts i = offs (fun k => counts.getD k 0) i := by
  induction i with
  | zero => rfl
  | succ i ih => simp [displacement, offs, ih]

theorem offs_congr {f g : Nat → Nat} {n : Nat} (h : ∀ k, k < n → f k = g k) : offs f n = offs g n := by
  induction n with
  | zero => rfl
  | succ n ih => simp only [offs]; rw [ih (fun k hk => h k (by omega)), h n (by omega)]

end Verif.Model
