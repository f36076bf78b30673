import Verif.Proofs.ActiveBuild
import Verif.Props.Mpi

/-! Gathering of variable-length lists by displacements and a sum over processes. -/
namespace Verif.Props
open Verif.Model

/-- Counts that are the lengths of the lists: every process gets the concatenation of the lists. -/
theorem collectWith_val (mine : List (List Nat)) (counts : List Nat)
    (hc : counts = mine.map List.length) :
    collectWith counts mine = .ok (List.replicate mine.length mine.flatten) := by
  set size := mine.length with hsize
  set m : Nat → List Nat := fun r => mine.getD r [] with hmdef
  have hcounts : counts = (List.range size).map (fun r => (m r).length) := by
    rw [hc]
    apply List.ext_getElem
    · simp [hsize]
    · intro i h1 h2
      have : i < mine.length := by simpa using h1
      simp [hmdef, this]
  have hflat : (List.range size).flatMap m = mine.flatten := by
    rw [List.flatMap_def]
    congr 1
    apply List.ext_getElem
    · simp [hsize]
    · intro i h1 h2; simp [hmdef, h2]
  have hcget : ∀ k, k < size → counts.getD k 0 = (m k).length := by
    intro k hk; simp [hcounts, hk]
  have hdisp : ∀ r, r ≤ size → displacement counts r = offs (fun k => (m k).length) r := by
    intro r hr
    rw [displacement_eq]
    exact offs_congr (fun k hk => hcget k (by omega))
  have hnum : counts.foldl (· + ·) 0 = offs (fun k => (m k).length) size := by
    rw [hcounts, List.foldl_map, foldl_offs]
  set N := offs (fun k => (m k).length) size with hN
  have hNlen : mine.flatten.length = N := by rw [← hflat, flatMap_offs_length]
  -- buffers before the reduction
  have hbuf : ∀ r, r < size → ∃ b, writeAll ((List.range (m r).length).map fun i =>
      (i + displacement counts r, (m r).getD i 0)) (List.replicate N 0) = .ok b ∧
      ∀ i, b.getD i 0 = if i ∈ List.range' (offs (fun k => (m k).length) r)
        (offs (fun k => (m k).length) (r + 1) - offs (fun k => (m k).length) r) then mine.flatten.getD i 0 else 0 := by
    intro r hr
    have hdr := hdisp r (by omega)
    obtain ⟨b, h1, h2, h3, h4⟩ := writeAll_spec ((List.range (m r).length).map fun i =>
      (i + displacement counts r, (m r).getD i 0)) (List.replicate N 0) (by
        intro w hw
        obtain ⟨i, hi, rfl⟩ := List.mem_map.mp hw
        simp only [List.length_replicate, hdr]
        rw [Nat.add_comm]
        exact offs_block_lt _ hr (by simpa using hi)) (by
        rw [List.map_map]
        exact List.Nodup.map (fun a b h => by simpa using h) List.nodup_range)
    refine ⟨b, h1, fun i => ?_⟩
    have e : offs (fun k => (m k).length) (r + 1) - offs (fun k => (m k).length) r = (m r).length := by
      simp [offs]
    rw [e]
    by_cases hi : i ∈ List.range' (offs (fun k => (m k).length) r) (m r).length
    · rw [if_pos hi]
      rw [List.mem_range'_1] at hi
      have hj : i - offs (fun k => (m k).length) r < (m r).length := by omega
      have := h3 (i, (m r).getD (i - offs (fun k => (m k).length) r) 0) (List.mem_map.mpr
        ⟨i - offs (fun k => (m k).length) r, by simpa using hj, by rw [hdr]; congr 1; omega⟩)
      rw [List.getD_eq_getElem?_getD, this, List.getD_eq_getElem?_getD, ← hflat]
      have hf := flatMap_offs_getElem? m hr hj
      have e2 : offs (fun k => (m k).length) r + (i - offs (fun k => (m k).length) r) = i := by omega
      rw [e2] at hf
      rw [List.getD_eq_getElem?_getD, hf]; simp [hj]
    · rw [if_neg hi]
      rw [List.getD_eq_getElem?_getD, h4 i]
      · rcases Nat.lt_or_ge i N with h | h
        · simp [h]
        · rw [List.getElem?_eq_none (by simpa using h)]; rfl
      · intro hm
        obtain ⟨w, hw, rfl⟩ := List.mem_map.mp hm
        obtain ⟨j, hj, rfl⟩ := List.mem_map.mp hw
        apply hi
        rw [List.mem_range'_1, hdr]
        have : j < (m r).length := by simpa using hj
        simp only; omega
  choose! b hb1 hb2 using hbuf
  have hmap : mapOutcome (fun r => writeAll ((List.range (mine.getD r []).length).map fun i =>
      (i + displacement counts r, (mine.getD r []).getD i 0)) (List.replicate N 0)) (List.range size) =
      .ok ((List.range size).map b) := mapOutcome_ok _ (fun r hr => hb1 r (by simpa using hr))
  unfold collectWith
  simp only [Outcome.bind_eq]
  rw [← hsize, hnum, hmap]
  simp only [Outcome.bind_ok]
  congr 1
  apply List.ext_getElem
  · unfold allReduceSum1
    split <;> simp
  · intro r h1 h2
    have hr : r < size := by simpa using h2
    simp only [List.getElem_map, List.getElem_replicate]
    have hsum : ∀ i, (((List.range size).map b).map (fun b => fun i => b.getD i 0) |>.map (fun f => f i)).sum =
        if i < N then mine.flatten.getD i 0 else 0 := by
      intro i
      have := sum_slices (offs (fun k => (m k).length)) rfl (fun r => by simp [offs])
        (fun i => mine.flatten.getD i 0) i size
      rw [← hN] at this
      rw [← this]
      congr 1
      rw [List.map_map, List.map_map]
      apply List.map_congr_left
      intro r hr
      simp only [Function.comp_apply]
      exact hb2 r (by simpa using hr) i
    apply List.ext_getElem
    · simp [hNlen]
    · intro i h3 h4
      have hi : i < N := by simpa using h3
      simp only [List.getElem_map, List.getElem_range]
      have hl : i < mine.flatten.length := by omega
      refine allReduceSum1_get _ r _ i _ ?_
      rw [hsum i, if_pos hi, List.getD_eq_getElem?_getD, List.getElem?_eq_getElem hl]
      rfl


theorem collectArray_val (mine : List (List Nat)) (hs : 0 < mine.length)
    (hfit : mine.length * mine.length < sizeTMod) (hint : (mine.length : Int) ≤ intMax) :
    collectArray mine = .ok (List.replicate mine.length mine.flatten) := by
  set size := mine.length with hsize
  set m : Nat → List Nat := fun r => mine.getD r [] with hmdef
  set counts := (List.range size).map (fun r => (m r).length) with hcounts
  have hgather : allGatherv (mine.map fun l => [l.length]) (List.replicate size 0) = .ok counts := by
    rw [hcounts]
    refine C07_gather size size hs hfit hint (fun r => (m r).length) _ (by simp [hsize]) ?_ _ (by simp)
    intro r hr
    have hr' : r < size := by simpa [hsize] using hr
    refine ⟨[r], ?_, ?_⟩
    · rw [divideWorkIter_val hfit hr']
      have e1 : head size size r = r := by unfold head; exact Nat.mul_div_cancel_left r hs
      have e2 : head size size (r + 1) = r + 1 := by unfold head; exact Nat.mul_div_cancel_left (r + 1) hs
      rw [e1, e2]
      simp
    · have : r < mine.length := hr'
      simp [hmdef, this]
  unfold collectArray
  simp only [Outcome.bind_eq]
  rw [← hsize, hgather]
  simp only [Outcome.bind_ok]
  refine collectWith_val mine counts ?_
  rw [hcounts]
  apply List.ext_getElem
  · simp [hsize]
  · intro i h1 h2
    have : i < mine.length := by simpa using h2
    simp [hmdef, this]

end Verif.Props
