import Verif.Spec.ElHelper
import Verif.Props.Mpi
import Verif.Proofs.Bands
import Verif.Proofs.Input
import Verif.Proofs.Device
import Verif.Proofs.ThirdState

/-! # Lemmas on the phonons of the electron-phonon processes -/
namespace Verif.Proofs.ElHelper
open Verif.Model Verif.Props

variable {α γ υ ω : Type}

theorem slice_eq (L : List α) (z : α) (a b : Nat) (hab : a ≤ b) (hb : b ≤ L.length) :
    (L.take b).drop a = (List.range' a (b - a)).map fun i => L.getD i z := by
  apply List.ext_getElem
  · simp; omega
  · intro i h1 h2
    simp only [List.length_map, List.length_range'] at h2
    rw [List.getElem_drop, List.getElem_take, List.getElem_map, List.getElem_range', List.getD_eq_getElem?_getD]
    rw [List.getElem?_eq_getElem (by omega)]
    simp

theorem flatMap_take (nb : Nat) (col : Nat → List γ) (its : List Nat) (hc : ∀ i ∈ its, (col i).length = nb) (b : Nat) :
    (its.flatMap col).take (nb * b) = (its.take b).flatMap col := by
  induction its generalizing b with
  | nil => simp
  | cons a t ih =>
    cases b with
    | zero => simp
    | succ b =>
      have h1 := hc a (by simp)
      rw [List.flatMap_cons, List.take_succ_cons, List.flatMap_cons, Nat.mul_succ, List.take_append, h1,
        List.take_of_length_le (by rw [h1]; omega), ← ih (fun i hi => hc i (by simp [hi])) b]
      congr 2
      omega

theorem flatMap_drop (nb : Nat) (col : Nat → List γ) (its : List Nat) (hc : ∀ i ∈ its, (col i).length = nb) (b : Nat) :
    (its.flatMap col).drop (nb * b) = (its.drop b).flatMap col := by
  induction its generalizing b with
  | nil => simp
  | cons a t ih =>
    cases b with
    | zero => simp
    | succ b =>
      have h1 := hc a (by simp)
      rw [List.flatMap_cons, List.drop_succ_cons, Nat.mul_succ, List.drop_append, h1,
        List.drop_of_length_le (by rw [h1]; omega), ← ih (fun i hi => hc i (by simp [hi])) b, List.nil_append]
      congr 1
      omega

theorem flatMap_length (nb : Nat) (col : Nat → List γ) (its : List Nat) (hc : ∀ i ∈ its, (col i).length = nb) :
    (its.flatMap col).length = nb * its.length := by
  induction its with
  | nil => simp
  | cons a t ih =>
    rw [List.flatMap_cons, List.length_append, ih (fun i hi => hc i (by simp [hi])), hc a (by simp), List.length_cons,
      Nat.mul_succ]
    omega

theorem polarDisps_val (nb : Nat) (h : Nat → Nat) (hm : ∀ r, h r ≤ h (r + 1)) (k s : Nat) (prev : Option (Int × Int))
    (hp : polarStart prev = .ok ((nb * h s : Nat) : Int))
    (hfit : ((nb * h (s + k) : Nat) : Int) ≤ intMax) :
    polarDisps nb ((List.range' s k).map fun r => h (r + 1) - h r) prev =
      .ok ((List.range' s k).map fun r => (((nb * (h (r + 1) - h r) : Nat) : Int), ((nb * h r : Nat) : Int))) := by
  induction k generalizing s prev with
  | zero => simp [polarDisps]
  | succ k ih =>
    have hmono : ∀ i j, i ≤ j → h i ≤ h j := fun i j hij => monotone_nat_of_le_succ hm hij
    have h1 : nb * h (s + 1) ≤ nb * h (s + (k + 1)) := Nat.mul_le_mul_left _ (hmono _ _ (by omega))
    have h2 : nb * (h (s + 1) - h s) + nb * h s = nb * h (s + 1) := by
      rw [← Nat.mul_add]; congr 1; have := hm s; omega
    have hsz : cmul nb ((h (s + 1) - h s : Nat) : Int) = .ok ((nb * (h (s + 1) - h s) : Nat) : Int) := by
      unfold cmul
      rw [← Nat.cast_mul, i32_ok]
      · unfold intMin; omega
      · omega
    rw [List.range'_succ, List.map_cons, List.map_cons]
    unfold polarDisps
    rw [Outcome.bind_eq, hsz]
    show (polarStart prev >>= fun start => _) = _
    rw [hp, Outcome.bind_eq]
    show (polarDisps nb _ _ >>= fun rest => _) = _
    rw [ih (s + 1) _ ?_ (by rw [show s + 1 + k = s + (k + 1) by omega]; exact hfit)]
    · rfl
    · show cadd _ _ = _
      unfold cadd
      rw [← Nat.cast_add, Nat.add_comm, h2, i32_ok]
      · unfold intMin; omega
      · omega

theorem parallelIrr_val (its : List Nat) (size r : Nat) (hr : r < size) (hfit : its.length * size < sizeTMod) :
    parallelIrr its size r = (its.take (head its.length size (r + 1))).drop (head its.length size r) := by
  unfold parallelIrr
  rw [divideWork_val hfit hr]

theorem polarTable_val (zero : γ) (size nb : Nat) (hs : 0 < size) (its : List Nat) (part1 : Nat → Outcome (List γ))
    (col : Nat → List γ) (hcol : ∀ i ∈ its, part1 i = .ok (col i) ∧ (col i).length = nb)
    (hfit : its.length * size < sizeTMod) (hint : (its.length : Int) ≤ intMax)
    (hbig : ((nb * its.length : Nat) : Int) ≤ intMax) :
    polarTable zero size nb its part1 = .ok (its.map fun i => (i, col i)) := by
  have hc : ∀ i ∈ its, (col i).length = nb := fun i hi => (hcol i hi).2
  set n := its.length with hn
  have hmono : ∀ {r s}, r ≤ s → head n size r ≤ head n size s := fun h => head_mono n size h
  have hlast := head_last n size hs
  have hle : ∀ r, r ≤ size → head n size r ≤ n := fun r hr => le_of_le_of_eq (hmono hr) hlast
  set D := its.flatMap col with hD
  have hDl : D.length = nb * n := flatMap_length nb col its hc
  -- the pieces of the processes
  have hiq : (List.range size).map (parallelIrr its size) =
      (List.range' 0 size).map fun r => (List.range' (head n size r) (head n size (r + 1) - head n size r)).map
        fun i => its.getD i 0 := by
    rw [List.range_eq_range']
    apply List.map_congr_left
    intro r hr
    simp only [List.mem_range'_1] at hr
    rw [parallelIrr_val its size r (by omega) hfit]
    exact slice_eq its 0 _ _ (hmono (Nat.le_succ r)) (hle _ (by omega))
  have hcols : mapOutcome (polarLocal nb part1) ((List.range size).map (parallelIrr its size)) =
      .ok ((List.range' 0 size).map fun r => (List.range' (nb * head n size r)
        (nb * head n size (r + 1) - nb * head n size r)).map fun i => D.getD i zero) := by
    rw [mapOutcome_eq_map (g := fun l => l.flatMap col)]
    · rw [List.map_map, List.range_eq_range']
      congr 1
      apply List.map_congr_left
      intro r hr
      simp only [List.mem_range'_1] at hr
      simp only [Function.comp]
      rw [parallelIrr_val its size r (by omega) hfit,
        ← flatMap_drop nb col _ (fun i hi => hc i (List.mem_of_mem_take hi)), ← flatMap_take nb col its hc]
      exact slice_eq D zero _ _ (Nat.mul_le_mul_left _ (hmono (Nat.le_succ r)))
        (by rw [hDl]; exact Nat.mul_le_mul_left _ (hle _ (by omega)))
    · intro l hl
      obtain ⟨r, hr, rfl⟩ := List.mem_map.mp hl
      simp only [List.mem_range] at hr
      unfold polarLocal
      rw [mapOutcome_eq_map (g := col)]
      · rw [Outcome.bind_eq]
        rw [List.flatMap_def]
        rfl
      · intro i hi
        have hi' : i ∈ its := by
          rw [parallelIrr_val its size r hr hfit] at hi
          exact List.mem_of_mem_take (List.mem_of_mem_drop hi)
        rw [(hcol i hi').1, Outcome.bind_eq]
        show (if (col i).length = nb then Outcome.ok (col i) else .ub) = _
        rw [if_pos (hc i hi')]
  have hlens : ((List.range size).map (parallelIrr its size)).map List.length =
      (List.range' 0 size).map fun r => head n size (r + 1) - head n size r := by
    rw [hiq, List.map_map]
    apply List.map_congr_left
    intro r _
    simp
  have hsum : (((List.range size).map (parallelIrr its size)).map List.length).sum = n := by
    rw [hlens]
    have : ∀ k, ((List.range' 0 k).map fun r => head n size (r + 1) - head n size r).sum = head n size k := by
      intro k
      induction k with
      | zero => simp [head]
      | succ k ih =>
        rw [List.range'_concat, List.map_append, List.sum_append, ih]
        have := hmono (Nat.le_succ k)
        simp only [List.map_cons, List.map_nil, List.sum_cons, List.sum_nil, Nat.zero_add, Nat.one_mul]
        simp only [Nat.succ_eq_add_one] at this
        omega
    rw [this, hlast]
  have hall : allGatherv ((List.range size).map (parallelIrr its size)) (List.replicate n 0) = .ok its := by
    have := C07_gather n size hs hfit hint (fun i => its.getD i 0) ((List.range size).map (parallelIrr its size))
      (by simp) (by
        intro r hr
        simp only [List.length_map, List.length_range] at hr
        refine ⟨_, divideWorkIter_val hfit hr, ?_⟩
        rw [List.getElem_map, List.getElem_range, parallelIrr_val its size r hr hfit]
        exact slice_eq its 0 _ _ (hmono (Nat.le_succ r)) (hle _ (by omega))) (List.replicate n 0) (by simp)
    rw [this]
    congr 1
    apply List.ext_getElem
    · simp [hn]
    · intro i h1 h2
      simp [List.getD_eq_getElem?_getD, List.getElem?_eq_getElem h2]
  have hdisp := polarDisps_val nb (head n size) (fun r => hmono (Nat.le_succ r)) size 0 none
    (by simp [head, polarStart]) (by rw [Nat.zero_add, hlast]; exact hbig)
  have hdata := mpiGatherv_blocks (fun r => nb * head n size r)
    (fun r => Nat.mul_le_mul_left _ (hmono (Nat.le_succ r))) (fun i => D.getD i zero) size 0
    (List.replicate (nb * n) zero) (by rw [Nat.zero_add, hlast]; simp)
  have hdata' : mpiGatherv ((List.range' 0 size).map fun r => (List.range' (nb * head n size r)
        (nb * head n size (r + 1) - nb * head n size r)).map fun i => D.getD i zero)
      (((List.range' 0 size).map fun r => (((nb * (head n size (r + 1) - head n size r) : Nat) : Int),
        ((nb * head n size r : Nat) : Int))).map Prod.fst)
      (((List.range' 0 size).map fun r => (((nb * (head n size (r + 1) - head n size r) : Nat) : Int),
        ((nb * head n size r : Nat) : Int))).map Prod.snd) (List.replicate (nb * n) zero) = .ok D := by
    rw [List.map_map, List.map_map]
    have e1 : ∀ r, ((Prod.fst ∘ fun r => (((nb * (head n size (r + 1) - head n size r) : Nat) : Int),
        ((nb * head n size r : Nat) : Int))) r) = ((nb * head n size (r + 1) - nb * head n size r : Nat) : Int) := by
      intro r
      simp only [Function.comp]
      rw [Nat.mul_sub]
    rw [List.map_congr_left (fun r _ => e1 r)]
    refine hdata.trans ?_
    congr 1
    rw [Nat.zero_add, hlast]
    have h0 : head n size 0 = 0 := by simp [head]
    simp only [h0, Nat.mul_zero, List.take_zero, List.nil_append, Nat.sub_zero]
    rw [List.drop_of_length_le (by simp), List.append_nil]
    have := slice_eq D zero 0 (nb * n) (Nat.zero_le _) (by rw [hDl])
    rw [Nat.sub_zero, List.drop_zero, List.take_of_length_le (by rw [hDl])] at this
    exact this.symm
  unfold polarTable
  simp only [Outcome.bind_eq]
  rw [hcols]
  show polarGather zero nb _ _ = _
  unfold polarGather
  simp only [Outcome.bind_eq]
  rw [hsum, hall]
  show (polarDisps nb _ none >>= fun d => _) = _
  rw [hlens, hdisp]
  show (mpiGatherv _ _ _ _ >>= fun data => _) = _
  rw [hdata']
  show mapOutcome _ (List.range n) = _
  rw [mapOutcome_eq_map (g := fun i => (its.getD i 0, col (its.getD i 0)))]
  · congr 1
    apply List.ext_getElem
    · simp [hn]
    · intro i h1 h2
      simp only [List.length_map] at h2
      simp [List.getD_eq_getElem?_getD, List.getElem?_eq_getElem h2]
  · intro i hi
    rw [List.mem_range] at hi
    have hg : its.getD i 0 = its[i] := by simp [List.getD_eq_getElem?_getD, List.getElem?_eq_getElem (show i < its.length from hi)]
    have hr : readAt its i = .ok its[i] := by
      unfold readAt
      rw [List.getElem?_eq_getElem (show i < its.length from hi)]
    rw [hr, hg]
    show Outcome.ok (its[i], (D.drop (nb * i)).take nb) = _
    rw [hD, flatMap_drop nb col its hc, List.drop_eq_getElem_cons (show i < its.length from hi), List.flatMap_cons,
      List.take_append, hc _ (List.getElem_mem _), Nat.sub_self, List.take_zero, List.append_nil,
      List.take_of_length_le (by rw [hc _ (List.getElem_mem _)])]

theorem polarAt_mem (its : List Nat) (col : Nat → List γ) (i : Nat) (hi : i ∈ its) :
    polarAt (its.map fun i => (i, col i)) i = .ok (col i) := by
  unfold polarAt
  induction its with
  | nil => cases hi
  | cons a t ih =>
    rw [List.map_cons, List.find?_cons]
    by_cases h : a = i
    · subst h; simp
    · have : i ∈ t := by
        rcases List.mem_cons.mp hi with h' | h'
        · exact absurd h'.symm h
        · exact h'
      simp only [h, decide_false]
      exact ih this

theorem polarAt_not_mem (its : List Nat) (col : Nat → List γ) (i : Nat) (hi : i ∉ its) :
    polarAt (its.map fun i => (i, col i)) i = .error := by
  unfold polarAt
  have : (its.map fun i => (i, col i)).find? (fun p => p.1 = i) = none := by
    rw [List.find?_eq_none]
    intro p hp
    obtain ⟨a, ha, rfl⟩ := List.mem_map.mp hp
    simp only [decide_eq_true_eq]
    rintro rfl
    exact hi ha
  rw [this]

theorem mapOutcome_first {β δ : Type} {f : β → Outcome δ} {l : List β} {size : Nat} {P : δ} (hs : 0 < size)
    (h : mapOutcome f l = .ok (List.replicate size P)) : ∃ x, f x = .ok P := by
  obtain ⟨m, rfl⟩ : ∃ m, size = m + 1 := ⟨size - 1, by omega⟩
  cases l with
  | nil => simp [mapOutcome, List.replicate_succ] at h
  | cons a t =>
    unfold mapOutcome at h
    obtain ⟨b, hb, h⟩ := (Outcome.bind_eq_ok_iff _ _ _).mp h
    obtain ⟨bs, _, h⟩ := (Outcome.bind_eq_ok_iff _ _ _).mp h
    simp only [Outcome.ok.injEq, List.replicate_succ, List.cons.injEq] at h
    exact ⟨a, by rw [hb, h.1]⟩

theorem full_not_stored {mesh : V3 Int} (hm : PosMesh mesh) {full : Points} (h : setMesh mesh ⟨0, 0, 0⟩ = .ok full) :
    full.explicitlyStored = false := by
  obtain ⟨t, e1, e2, e3, e4, _⟩ := setMesh_pos hm
  rw [h] at e1; cases e1
  exact e4

theorem active_coordinates {full P : Points} {f : List Int} (hfull : full.explicitlyStored = false)
    (h : full.setActiveLayer f = .ok P) (i : Nat) (hi : i < P.numPoints) : ∃ p, P.getPointCoordinates (i : Int) = .ok p := by
  unfold Points.setActiveLayer at h
  split_ifs at h with h1 h2 h3 h4
  · cases h
    unfold Points.getPointCoordinates
    rw [hfull]
    exact ⟨_, rfl⟩
  · cases h
    unfold Points.getPointCoordinates
    simp only at hi ⊢
    rw [if_pos trivial, if_pos (by simp; omega)]
    exact ⟨_, rfl⟩

end Verif.Proofs.ElHelper
