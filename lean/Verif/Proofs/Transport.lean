import Verif.Model.Transport
import Verif.Spec.Transport
import Verif.Proofs.VectorBte
import Mathlib.Algebra.BigOperators.Field
import Mathlib.Algebra.BigOperators.Fin
import Mathlib.LinearAlgebra.Matrix.Symmetric
import Mathlib.Tactic.Linarith
import Mathlib.Tactic.LinearCombination
import Mathlib.Tactic.FieldSimp

namespace Verif.Model
open Verif.Spec

theorem threadSum_eq {α : Type} [AddMonoid α] (threads : List (List Nat)) (term : Nat → α) :
    threadSum threads term = (threads.flatten.map term).sum := by
  have h1 : ∀ (l : List Nat) (a : α), l.foldl (fun priv is => priv + term is) a = a + (l.map term).sum := by
    intro l
    induction l with
    | nil => intro a; simp
    | cons b t ih => intro a; rw [List.foldl_cons, ih, List.map_cons, List.sum_cons, add_assoc]
  have h2 : ∀ (l : List (List Nat)) (a : α),
      l.foldl (fun acc chunk => acc + chunk.foldl (fun priv is => priv + term is) 0) a =
        a + (l.flatten.map term).sum := by
    intro l
    induction l with
    | nil => intro a; simp
    | cons b t ih =>
      intro a
      rw [List.foldl_cons, ih, h1, zero_add, List.flatten_cons, List.map_append, List.sum_append, add_assoc]
  unfold threadSum
  rw [h2, zero_add]

theorem stateSum_val {α : Type} [AddCommMonoid α] (irr : List Nat) (size : Nat) (hs : 0 < size)
    (hfit : irr.length * size < 18446744073709551616) (sched : Nat → List (List Nat))
    (hsched : ∀ r < size, (sched r).flatten.Perm (sliceOf irr r size)) (term : Nat → Nat → α) :
    (stateSum size sched term).length = size ∧
    ∀ f ∈ stateSum size sched term, ∀ iCalc, f iCalc = (irr.map (term iCalc)).sum := by
  constructor
  · unfold stateSum; rw [allReduceSum1_length]; simp
  intro f hf iCalc
  unfold stateSum at hf
  rw [mem_allReduceSum1 _ _ hf, List.map_map]
  conv_rhs => rw [← slices_flatten irr size hs hfit]
  rw [List.map_flatMap, sum_flatMap]
  congr 1
  apply List.map_congr_left
  intro r hr
  simp only [Function.comp]
  rw [threadSum_eq]
  exact ((hsched r (by simpa using hr)).map _).sum_eq

theorem mat_foldr_apply {n : Nat} {β : Type} (l : List β) (f : β → Matrix (Fin n) (Fin n) ℝ) (i j : Fin n) :
    ((l.map f).foldr (· + ·) (0 : Matrix (Fin n) (Fin n) ℝ) : Matrix (Fin n) (Fin n) ℝ) i j =
      (l.map fun b => f b i j).sum := by
  induction l with
  | nil => rfl
  | cons b t ih => simp only [List.map_cons, List.foldr_cons, List.sum_cons, Matrix.add_apply, ih]

theorem mat_sum_apply {n : Nat} {β : Type} (l : List β) (f : β → Matrix (Fin n) (Fin n) ℝ) (i j : Fin n) :
    (l.map f).sum i j = (l.map fun b => f b i j).sum := mat_foldr_apply l f i j

/-- The sum over the irreducible states and their rotations is the sum over the mesh. -/
theorem unfold_sum {irr : List Nat} {rots : Nat → List Mat3} {star : Nat → List Nat} {numStates : Nat}
    (hU : Unfolding irr rots star numStates) (F : Nat → Mat3 → ℝ) (G : Nat → ℝ)
    (h : ∀ is ∈ irr, ∀ p ∈ (rots is).zip (star is), F is p.1 = G p.2) :
    (irr.map fun is => ((rots is).map (F is)).sum).sum = ∑ s ∈ Finset.range numStates, G s := by
  have e1 : ∀ is ∈ irr, (rots is).map (F is) = (star is).map G := by
    intro is his
    have hl := hU.pair is his
    have a1 : rots is = ((rots is).zip (star is)).map Prod.fst := (List.map_fst_zip (by omega)).symm
    have a2 : star is = ((rots is).zip (star is)).map Prod.snd := (List.map_snd_zip (by omega)).symm
    conv_lhs => rw [a1]
    conv_rhs => rw [a2]
    rw [List.map_map, List.map_map]
    apply List.map_congr_left
    intro p hp
    exact h is his p hp
  have e2 : (irr.map fun is => ((rots is).map (F is)).sum).sum = (irr.map fun is => ((star is).map G).sum).sum := by
    congr 1
    apply List.map_congr_left
    intro is his
    rw [e1 is his]
  rw [e2, ← sum_flatMap, ← List.map_flatMap, (hU.cover.map G).sum_eq]
  rfl

theorem matVec_row (R : Mat3) (x : Vec3) (i : Fin 3) : matVec R x i = R i 0 * x 0 + R i 1 * x 1 + R i 2 * x 2 := rfl

theorem lowVec_three (junk x : Vec3) : lowVec 3 junk x = x := by
  funext i
  unfold lowVec
  rw [if_pos i.isLt]

theorem zip_mem_snd {α β : Type} {l : List α} {m : List β} {p : α × β} (h : p ∈ l.zip m) : p.2 ∈ m :=
  (List.of_mem_zip (a := p.1) (b := p.2) h).2

/-- One element of the tensor of a phonon population. -/
theorem phTerm_apply (B : BandView) (d : Nat) (norm : ℝ) (n : VBte ℝ) (junk : Nat → Nat → Mat3 → Vec3) (iCalc is : Nat)
    (i j : Fin 3) : phTerm B d norm n junk iCalc is i j =
      if B.toBte is ∈ n.exclude then 0
      else ((B.rots is).map fun R => if i.val < d ∧ j.val < d then
        matVec R (lowVec d (junk iCalc is R) (vec3Of n iCalc (B.toBte is))) i * matVec R (B.vel is) j *
          B.energy is * norm else 0).sum := by
  unfold phTerm
  simp only
  split
  · rfl
  · exact mat_foldr_apply _ _ i j

theorem onsagerTerm_apply (B : BandView) (norm : ℝ) (n : VBte ℝ) (w : ℝ → ℝ) (iCalc is : Nat) (i j : Fin 3) :
    onsagerTerm B norm n w iCalc is i j =
      ((B.rots is).map fun R => matVec R (vec3Of n iCalc (B.toBte is)) i * matVec R (B.vel is) j *
        w (B.energy is) * norm).sum := by
  unfold onsagerTerm
  exact mat_foldr_apply _ _ i j

/-- The full-mesh value of an element of the phonon tensor, in any dimension, when the rotations do not mix the first `d`
axes with the others. -/
theorem phTensor_val (B : BandView) (d numPoints : Nat) (volume : ℝ) (n : VBte ℝ) (junk : Nat → Nat → Mat3 → Vec3)
    (size : Nat) (sched : Nat → List (List Nat)) (hs : 0 < size) (hfit : B.irr.length * size < 18446744073709551616)
    (hsched : ∀ r < size, (sched r).flatten.Perm (sliceOf B.irr r size))
    {star : Nat → List Nat} {numStates : Nat} (hU : Unfolding B.irr B.rots star numStates)
    (hE : Invariant B.irr star B.energy) (hV : Covariant B.irr B.rots star B.vel)
    (iCalc : Nat) (x : Nat → Vec3) (hx : Covariant B.irr B.rots star x)
    (hn : ∀ is ∈ B.irr, ∀ i : Fin 3, i.val < d → n.get iCalc i (B.toBte is) = x is i)
    (hblock : ∀ is ∈ B.irr, ∀ R ∈ B.rots is, ∀ i k : Fin 3, i.val < d → d ≤ k.val → R i k = 0)
    (ex : Nat → Prop) [DecidablePred ex] (hex : ∀ is ∈ B.irr, ∀ s ∈ star is, ex s ↔ B.toBte is ∈ n.exclude) :
    (phTensor B d numPoints volume n junk size sched).length = size ∧
    ∀ f ∈ phTensor B d numPoints volume n junk size sched, ∀ i j : Fin 3, i.val < d → j.val < d →
      f iCalc i j =
        crystalAverage numStates numPoints volume x B.vel (fun s => if ex s then 0 else B.energy s) i j := by
  obtain ⟨h1, h2⟩ := stateSum_val B.irr size hs hfit sched hsched (phTerm B d (1 / numPoints / volume) n junk)
  refine ⟨h1, ?_⟩
  intro f hf i j hi hj
  rw [h2 f hf iCalc, mat_sum_apply]
  have e : (B.irr.map fun is => phTerm B d (1 / numPoints / volume) n junk iCalc is i j) =
      B.irr.map fun is => ((B.rots is).map fun R => if B.toBte is ∈ n.exclude then 0 else
        matVec R (x is) i * matVec R (B.vel is) j * B.energy is * (1 / numPoints / volume)).sum := by
    apply List.map_congr_left
    intro is his
    rw [phTerm_apply]
    by_cases hb : B.toBte is ∈ n.exclude
    · simp [hb]
    · simp only [if_neg hb]
      congr 1
      apply List.map_congr_left
      intro R hR
      rw [if_pos ⟨hi, hj⟩]
      have hm : matVec R (lowVec d (junk iCalc is R) (vec3Of n iCalc (B.toBte is))) i = matVec R (x is) i := by
        have hk : ∀ k : Fin 3, R i k * lowVec d (junk iCalc is R) (vec3Of n iCalc (B.toBte is)) k = R i k * x is k := by
          intro k
          by_cases hk : k.val < d
          · unfold lowVec vec3Of
            rw [if_pos hk, hn is his k hk]
          · rw [hblock is his R hR i k hi (by omega)]; ring
        rw [matVec_row, matVec_row, hk 0, hk 1, hk 2]
      rw [hm]
  rw [e, unfold_sum hU (fun is R => if B.toBte is ∈ n.exclude then 0 else
        matVec R (x is) i * matVec R (B.vel is) j * B.energy is * (1 / numPoints / volume))
      (fun s => (if ex s then 0 else B.energy s) * x s i * B.vel s j * (1 / numPoints / volume))]
  · unfold crystalAverage
    rw [← Finset.sum_mul]
    have : (1 : ℝ) / numPoints / volume = 1 / (numPoints * volume) := by rw [div_div]
    rw [this, mul_one_div]
  · intro is his p hp
    have hs2 := zip_mem_snd hp
    by_cases hb : B.toBte is ∈ n.exclude
    · simp only [if_pos hb, if_pos ((hex is his p.2 hs2).mpr hb)]; ring
    · simp only [if_neg hb, if_neg (fun h => hb ((hex is his p.2 hs2).mp h))]
      rw [hx is his p hp, hV is his p hp, hE is his p.2 hs2]
      ring

/-- The full-mesh value of an element of an Onsager tensor. -/
theorem onsager_val (B : BandView) (numPoints : Nat) (volume spin : ℝ) (n : VBte ℝ) (w : Nat → ℝ → ℝ)
    (size : Nat) (sched : Nat → List (List Nat)) (hs : 0 < size) (hfit : B.irr.length * size < 18446744073709551616)
    (hsched : ∀ r < size, (sched r).flatten.Perm (sliceOf B.irr r size))
    {star : Nat → List Nat} {numStates : Nat} (hU : Unfolding B.irr B.rots star numStates)
    (hE : Invariant B.irr star B.energy) (hV : Covariant B.irr B.rots star B.vel)
    (iCalc : Nat) (x : Nat → Vec3) (hx : Covariant B.irr B.rots star x)
    (hn : ∀ is ∈ B.irr, ∀ i : Fin 3, n.get iCalc i (B.toBte is) = x is i) :
    ∀ f ∈ stateSum size sched (fun iCalc => onsagerTerm B (spin / numPoints / volume) n (w iCalc) iCalc), ∀ i j : Fin 3,
      f iCalc i j = spin * crystalAverage numStates numPoints volume x B.vel (fun s => w iCalc (B.energy s)) i j := by
  intro f hf i j
  rw [(stateSum_val B.irr size hs hfit sched hsched _).2 f hf iCalc, mat_sum_apply]
  have e : (B.irr.map fun is => onsagerTerm B (spin / numPoints / volume) n (w iCalc) iCalc is i j) =
      B.irr.map fun is => ((B.rots is).map fun R =>
        matVec R (x is) i * matVec R (B.vel is) j * w iCalc (B.energy is) * (spin / numPoints / volume)).sum := by
    apply List.map_congr_left
    intro is his
    rw [onsagerTerm_apply]
    have : vec3Of n iCalc (B.toBte is) = x is := funext fun i => hn is his i
    rw [this]
  rw [e, unfold_sum hU _ (fun s => w iCalc (B.energy s) * x s i * B.vel s j * (spin / numPoints / volume))]
  · unfold crystalAverage
    rw [← Finset.sum_mul]
    have : spin / numPoints / volume = spin * (1 / (numPoints * volume)) := by rw [div_div, mul_one_div]
    rw [this]; ring
  · intro is his p hp
    rw [hx is his p hp, hV is his p hp, hE is his p.2 (zip_mem_snd hp)]
    ring

/-! ## Symmetrised populations -/

theorem scaleSymmetric_val (B : BandView) (stat : Nat → CalcStat) (n : VBte ℝ) (hd : n.dim = 3) (states : List Nat)
    (hinj : (states.map B.toBte).Nodup) :
    (scaleSymmetric B stat states n).dim = 3 ∧
    (∀ is ∈ states, ∀ iCalc < n.numCalc, ∀ i : Fin 3,
      (scaleSymmetric B stat states n).get iCalc i (B.toBte is) =
        n.get iCalc i (B.toBte is) * Real.sqrt (getPopPopPm1 .fermi (B.energy is) (stat iCalc).temp (stat iCalc).chemPot)) ∧
    (∀ b, b ∉ states.map B.toBte → ∀ row, (scaleSymmetric B stat states n).data row b = n.data row b) := by
  unfold scaleSymmetric
  induction states generalizing n with
  | nil => exact ⟨hd, by simp, by simp⟩
  | cons a t ih =>
    rw [List.map_cons, List.nodup_cons] at hinj
    rw [List.foldl_cons]
    set n' : VBte ℝ := scaleState B stat n a with hn'
    obtain ⟨i1, i2, i3⟩ := ih n' hd hinj.2
    have hnum : n'.numCalc = n.numCalc := rfl
    refine ⟨i1, ?_, ?_⟩
    · intro is his iCalc hc i
      by_cases h : B.toBte is = B.toBte a
      · have hnt : B.toBte is ∉ t.map B.toBte := by rw [h]; exact hinj.1
        have hisa : is = a := by
          rcases List.mem_cons.mp his with rfl | h'
          · rfl
          · exact absurd (List.mem_map_of_mem h') hnt
        have e : (t.foldl (scaleState B stat) n').get iCalc i (B.toBte is) = n'.data (iCalc * 3 + i) (B.toBte is) := by
          unfold VBte.get
          rw [i1]
          exact i3 _ hnt _
        rw [e]
        simp only [hn', scaleState]
        have hrow : (iCalc * 3 + i.val) / 3 = iCalc := by omega
        rw [if_pos ⟨h, by omega⟩, hrow]
        unfold VBte.get
        rw [hd, hisa]
      · have ht : is ∈ t := by
          rcases List.mem_cons.mp his with rfl | h'
          · exact absurd rfl h
          · exact h'
        rw [i2 is ht iCalc (by rw [hnum]; exact hc) i]
        have : n'.get iCalc i (B.toBte is) = n.get iCalc i (B.toBte is) := by
          unfold VBte.get
          simp only [hn', scaleState]
          rw [if_neg (fun hh => h hh.1)]
        rw [this]
    · intro b hb row
      rw [List.map_cons, List.mem_cons, not_or] at hb
      rw [i3 b hb.2 row]
      simp only [hn', scaleState]
      rw [if_neg (fun hh => hb.1 hh.1)]

theorem mem_sliceOf {v : List Nat} {r size is : Nat} (h : is ∈ sliceOf v r size) : is ∈ v := by
  unfold sliceOf at h
  exact List.mem_of_mem_drop (List.mem_of_mem_take h)

theorem sliceOf_sublist (v : List Nat) (r size : Nat) : (sliceOf v r size).Sublist v := by
  unfold sliceOf
  exact (List.take_sublist _ _).trans (List.drop_sublist _ _)

/-- The tensors of a symmetrised population are those of the population multiplied by `sqrt(n(1-n))`. -/
theorem symmetricTensor_val (B : BandView) (numPoints : Nat) (volume spin : ℝ) (n : VBte ℝ) (w : Nat → ℝ → ℝ)
    (stat : Nat → CalcStat) (size : Nat) (sched : Nat → List (List Nat)) (hs : 0 < size)
    (hfit : B.irr.length * size < 18446744073709551616)
    (hsched : ∀ r < size, (sched r).flatten.Perm (sliceOf B.irr r size)) (hinj : (B.irr.map B.toBte).Nodup)
    (hd : n.dim = 3) {star : Nat → List Nat} {numStates : Nat} (hU : Unfolding B.irr B.rots star numStates)
    (hE : Invariant B.irr star B.energy) (hV : Covariant B.irr B.rots star B.vel)
    (iCalc : Nat) (hc : iCalc < n.numCalc) (x : Nat → Vec3) (hx : Covariant B.irr B.rots star x)
    (hn : ∀ is ∈ B.irr, ∀ i : Fin 3, n.get iCalc i (B.toBte is) = x is i) :
    (symmetricTensor B (spin / numPoints / volume) n w stat size sched).length = size ∧
    ∀ f ∈ symmetricTensor B (spin / numPoints / volume) n w stat size sched, ∀ i j : Fin 3,
      f iCalc i j = spin * crystalAverage numStates numPoints volume x B.vel
        (fun s => w iCalc (B.energy s) *
          Real.sqrt (getPopPopPm1 .fermi (B.energy s) (stat iCalc).temp (stat iCalc).chemPot)) i j := by
  constructor
  · unfold symmetricTensor; rw [allReduceSum1_length]; simp
  intro f hf i j
  unfold symmetricTensor at hf
  rw [mem_allReduceSum1 _ _ hf, List.map_map, mat_sum_apply]
  set sq : Nat → ℝ := fun is => Real.sqrt (getPopPopPm1 .fermi (B.energy is) (stat iCalc).temp (stat iCalc).chemPot) with hsq
  set F : Nat → Mat3 → ℝ := fun is R => matVec R (x is) i * matVec R (B.vel is) j * (w iCalc (B.energy is) * sq is) *
    (spin / numPoints / volume) with hF
  have e : ((List.range size).map fun r => ((fun b : Nat → Mat3 => b iCalc) ∘ fun r => fun iCalc =>
      threadSum (sched r) (onsagerTerm B (spin / numPoints / volume) (scaleSymmetric B stat (sliceOf B.irr r size) n)
        (w iCalc) iCalc)) r i j) =
      (List.range size).map fun r => ((sliceOf B.irr r size).map fun is => ((B.rots is).map (F is)).sum).sum := by
    apply List.map_congr_left
    intro r hr
    simp only [Function.comp]
    rw [threadSum_eq, mat_sum_apply, ((hsched r (by simpa using hr)).map _).sum_eq]
    congr 1
    apply List.map_congr_left
    intro is his
    have hnd : ((sliceOf B.irr r size).map B.toBte).Nodup := hinj.sublist ((sliceOf_sublist _ _ _).map _)
    obtain ⟨_, q2, _⟩ := scaleSymmetric_val B stat n hd (sliceOf B.irr r size) hnd
    rw [onsagerTerm_apply]
    congr 1
    apply List.map_congr_left
    intro R _
    have : vec3Of (scaleSymmetric B stat (sliceOf B.irr r size) n) iCalc (B.toBte is) = fun i => x is i * sq is := by
      funext i
      unfold vec3Of
      rw [q2 is his iCalc hc i, hn is (mem_sliceOf his) i]
    rw [this, matVec_row, hF]
    simp only [matVec_row]
    ring
  rw [e, ← sum_flatMap, ← List.map_flatMap, slices_flatten B.irr size hs hfit,
    unfold_sum hU F (fun s => w iCalc (B.energy s) * sq s * x s i * B.vel s j * (spin / numPoints / volume))]
  · unfold crystalAverage
    rw [← Finset.sum_mul]
    have : spin / numPoints / volume = spin * (1 / (numPoints * volume)) := by rw [div_div, mul_one_div]
    rw [this]; ring
  · intro is his p hp
    have h2 := hE is his p.2 (zip_mem_snd hp)
    simp only [hF, hsq]
    rw [hx is his p hp, hV is his p hp, h2]
    ring

/-! ## Drift -/

theorem assignStates_val (B : BandView) (val : Nat → ℝ) (states : List Nat) (hinj : (states.map B.toBte).Nodup) :
    (∀ is ∈ states, assignStates B states val (B.toBte is) = val is) ∧
    (∀ b, b ∉ states.map B.toBte → assignStates B states val b = 0) := by
  have key : ∀ (l : List Nat) (d0 : Nat → ℝ), (l.map B.toBte).Nodup →
      (∀ is ∈ l, l.foldl (fun data is => fun b => if b = B.toBte is then val is else data b) d0 (B.toBte is) = val is) ∧
      (∀ b, b ∉ l.map B.toBte →
        l.foldl (fun data is => fun b => if b = B.toBte is then val is else data b) d0 b = d0 b) := by
    intro l
    induction l with
    | nil => intro d0 _; exact ⟨by simp, by simp⟩
    | cons a t ih =>
      intro d0 hnd
      rw [List.map_cons, List.nodup_cons] at hnd
      obtain ⟨i1, i2⟩ := ih (fun b => if b = B.toBte a then val a else d0 b) hnd.2
      constructor
      · intro is his
        rw [List.foldl_cons]
        rcases List.mem_cons.mp his with rfl | h
        · rw [i2 _ hnd.1, if_pos rfl]
        · exact i1 is h
      · intro b hb
        rw [List.map_cons, List.mem_cons, not_or] at hb
        rw [List.foldl_cons, i2 b hb.2, if_neg hb.1]
  exact key states _ hinj

theorem bulkDrift_val (B : BandView) (size : Nat) (dn : Nat → ℝ → ℝ) (iCalc : Nat) (i : Fin 3) (hs : 0 < size)
    (hfit : B.irr.length * size < 18446744073709551616) (hinj : (B.irr.map B.toBte).Nodup) :
    (bulkDrift B size dn iCalc i).length = size ∧ ∀ f ∈ bulkDrift B size dn iCalc i, ∀ is ∈ B.irr,
      f (B.toBte is) = dn iCalc (B.energy is) * B.vel is i := by
  constructor
  · unfold bulkDrift; rw [allReduceSum1_length]; simp
  intro f hf is his
  unfold bulkDrift at hf
  rw [mem_allReduceSum1 _ _ hf, List.map_map]
  set val : Nat → ℝ := fun is => dn iCalc (B.energy is) * B.vel is i with hval
  have hflat := slices_flatten B.irr size hs hfit
  have key : ∀ (rs : List Nat), ((rs.flatMap fun r => sliceOf B.irr r size).map B.toBte).Nodup →
      (rs.map ((fun b : Nat → ℝ => b (B.toBte is)) ∘ fun r => assignStates B (sliceOf B.irr r size) val)).sum =
        if is ∈ rs.flatMap (fun r => sliceOf B.irr r size) then val is else 0 := by
    intro rs
    induction rs with
    | nil => intro _; simp
    | cons r t ih =>
      intro hnd
      rw [List.flatMap_cons, List.map_append] at hnd
      have hd := List.nodup_append.mp hnd
      rw [List.map_cons, List.sum_cons, ih hd.2.1]
      obtain ⟨a1, a2⟩ := assignStates_val B val (sliceOf B.irr r size) hd.1
      simp only [Function.comp, List.flatMap_cons, List.mem_append]
      by_cases h1 : is ∈ sliceOf B.irr r size
      · have h2 : is ∉ t.flatMap fun r => sliceOf B.irr r size := by
          intro h2
          exact hd.2.2 _ (List.mem_map_of_mem h1) _ (List.mem_map_of_mem h2) rfl
        rw [a1 is h1, if_neg h2, if_pos (Or.inl h1), add_zero]
      · by_cases h2 : is ∈ t.flatMap fun r => sliceOf B.irr r size
        · rw [if_pos h2, if_pos (Or.inr h2), a2 _ ?_, zero_add]
          intro hm
          exact hd.2.2 _ hm _ (List.mem_map_of_mem h2) rfl
        · rw [if_neg h2, if_neg (by tauto), a2 _ ?_, zero_add]
          intro hm
          obtain ⟨is', h', e'⟩ := List.mem_map.mp hm
          -- `is'` and `is` are both irreducible with the same BTE index
          have : is' = is := by
            have hall : is' ∈ B.irr := by
              unfold sliceOf at h'
              exact List.mem_of_mem_drop (List.mem_of_mem_take h')
            exact List.inj_on_of_nodup_map hinj hall his e'
          exact h1 (this ▸ h')
  rw [key (List.range size) (by rw [hflat]; exact hinj), hflat, if_pos his]

end Verif.Model
