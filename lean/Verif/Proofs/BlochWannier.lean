import Verif.Spec.BlochWannier
import Verif.Proofs.Mpi
import Verif.Proofs.Utilities
import Verif.Proofs.Input

/-! Lemmas on the transform from Bloch states to Wannier functions. -/
namespace Verif.Props
open Verif.Model Verif.Spec

variable {E P M W B : Nat} {K Q : Type}

theorem sum_of_nodup_support {α : Type} [Fintype α] (l : List α) (hl : l.Nodup) (f : α → ℂ)
    (h : ∀ x, x ∉ l → f x = 0) : (l.map f).sum = ∑ x, f x := by
  classical
  rw [← List.sum_toFinset f hl]
  apply Finset.sum_subset (Finset.subset_univ _)
  intro x _ hx
  exact h x (by simpa using hx)

theorem gaugeTmp_val (t : GaugeThread M W B) (ht : t.first.Nodup) (uKq : Fin B → Fin W → ℂ)
    (g : Fin B → Fin B → Fin M → ℂ) (i : Fin W) (j : Fin B) (nu : Fin M) (h : ∀ l, (nu, i, j, l) ∈ t.first) :
    gaugeTmp t uKq g i j nu = ∑ l, uKq l i * g l j nu := by
  unfold gaugeTmp
  rw [sum_of_nodup_support t.first ht]
  · rw [Fintype.sum_prod_type, Finset.sum_eq_single nu, Fintype.sum_prod_type, Finset.sum_eq_single i,
      Fintype.sum_prod_type, Finset.sum_eq_single j]
    · simp
    · intro b _ hb; simp [hb]
    · simp
    · intro b _ hb; simp [hb]
    · simp
    · intro b _ hb; simp [hb]
    · simp
  · rintro ⟨nu', i', j', l⟩ hx
    simp only
    split
    · rename_i hc
      obtain ⟨rfl, rfl, rfl⟩ := hc
      exact absurd (h l) hx
    · rfl

theorem nodup_of_flatMap {α β : Type} {f : α → List β} {l : List α} (h : (l.flatMap f).Nodup) : ∀ t ∈ l, (f t).Nodup := by
  intro t ht
  rw [List.nodup_flatMap] at h
  exact h.1 t ht

theorem sum_map_flatMap {α β : Type} (l : List α) (f : α → List β) (g : β → ℂ) :
    (l.map fun t => ((f t).map g).sum).sum = ((l.flatMap f).map g).sum := by
  induction l with
  | nil => simp
  | cons a l ih => simp [ih]

theorem gaugeRotate_val (threads : List (GaugeThread M W B)) (hw : Worksharing threads) (ha : Aligned threads)
    (uKq uK : Fin B → Fin W → ℂ) (g : Fin B → Fin B → Fin M → ℂ) (i j : Fin W) (nu : Fin M) :
    gaugeRotate threads uKq uK g i j nu = wannierGauge uKq uK g i j nu := by
  have h1 := nodup_of_flatMap hw.1.1
  have key : gaugeRotate threads uKq uK g i j nu =
      (threads.map fun t => (t.second.map fun p => if p.1 = nu ∧ p.2.1 = i ∧ p.2.2.1 = j then
        (∑ l, uKq l i * g l p.2.2.2 nu) * (starRingEnd ℂ) (uK p.2.2.2 j) else 0).sum).sum := by
    unfold gaugeRotate gaugeTmp2
    congr 1
    apply List.map_congr_left
    intro t ht
    congr 1
    apply List.map_congr_left
    rintro ⟨nu', i', j', l⟩ hp
    simp only
    split
    · rename_i hc
      obtain ⟨rfl, rfl, rfl⟩ := hc
      rw [gaugeTmp_val t (h1 t ht) uKq g _ l _ (ha t ht _ _ _ _ hp)]
    · rfl
  rw [key, sum_map_flatMap, sum_of_nodup_support _ hw.2.1]
  · rw [Fintype.sum_prod_type, Finset.sum_eq_single nu, Fintype.sum_prod_type, Finset.sum_eq_single i,
      Fintype.sum_prod_type, Finset.sum_eq_single j]
    · simp only [and_self, if_true]
      unfold wannierGauge
      rw [Finset.sum_comm]
      simp only [Finset.sum_mul]
    · intro b _ hb; simp [hb]
    · simp
    · intro b _ hb; simp [hb]
    · simp
    · intro b _ hb; simp [hb]
    · simp
  · intro x hx
    exact absurd (hw.2.2 x) hx

theorem reduceOver_val {ι : Type} [DecidableEq ι] (shares : List (List ι)) (f : ι → ℂ) (x : ι)
    (h1 : shares.flatten.Nodup) (h2 : x ∈ shares.flatten) : reduceOver shares f x = f x := by
  unfold reduceOver
  induction shares with
  | nil => simp at h2
  | cons s l ih =>
    rw [List.flatten_cons, List.nodup_append] at h1
    rw [List.flatten_cons, List.mem_append] at h2
    rw [List.map_cons, List.sum_cons]
    by_cases hx : x ∈ s
    · rw [if_pos hx]
      have : (l.map fun s => if x ∈ s then f x else 0).sum = 0 := by
        apply List.sum_eq_zero
        intro y hy
        obtain ⟨s', hs', rfl⟩ := List.mem_map.mp hy
        rw [if_neg]
        intro hx'
        exact h1.2.2 x hx x (List.mem_flatten.mpr ⟨s', hs', hx'⟩) rfl
      rw [this, add_zero]
    · rw [if_neg hx, zero_add]
      exact ih h1.2.1 (h2.resolve_left hx)

theorem hostPhase_eq (x : ℝ) : hostPhase x = Complex.exp (Complex.I * (x : ℂ)) := by
  unfold hostPhase
  rw [mul_comm, Complex.exp_mul_I]
  apply Complex.ext <;> simp [Complex.cos_ofReal_re, Complex.sin_ofReal_re]

/-! ## Static schedule -/

theorem drop_flatMap_uniform {α β : Type} (f : α → List β) (c : Nat) (hf : ∀ a, (f a).length = c) (l : List α) (n : Nat) :
    (l.flatMap f).drop (n * c) = (l.drop n).flatMap f := by
  induction l generalizing n with
  | nil => simp
  | cons a l ih =>
    cases n with
    | zero => simp
    | succ n =>
      rw [List.flatMap_cons, List.drop_succ_cons, ← ih, Nat.succ_mul, Nat.add_comm, ← List.drop_drop]
      congr 1
      have := hf a
      rw [List.drop_append, this]
      simp [this]

theorem take_flatMap_uniform {α β : Type} (f : α → List β) (c : Nat) (hf : ∀ a, (f a).length = c) (l : List α) (n : Nat) :
    (l.flatMap f).take (n * c) = (l.take n).flatMap f := by
  induction l generalizing n with
  | nil => simp
  | cons a l ih =>
    cases n with
    | zero => simp
    | succ n =>
      rw [List.flatMap_cons, List.take_succ_cons, List.flatMap_cons, ← ih, List.take_append, hf a, Nat.succ_mul,
        List.take_of_length_le (by rw [hf a]; omega)]
      simp

theorem length_flatMap_uniform {α β : Type} (f : α → List β) (c : Nat) (hf : ∀ a, (f a).length = c) (l : List α) :
    (l.flatMap f).length = l.length * c := by
  induction l with
  | nil => simp
  | cons a l ih => simp [ih, hf a]; ring

/-- The static part of a nest whose outer loop is divisible is the nest over the part of the outer loop. -/
theorem staticPart_flatMap {α β : Type} (f : α → List β) (c : Nat) (hf : ∀ a, (f a).length = c) (l : List α) (T t : Nat)
    (hT : T ∣ l.length) (h0 : 0 < T) :
    staticPart T t (l.flatMap f) = (staticPart T t l).flatMap f := by
  obtain ⟨s, hs⟩ := hT
  have e1 : l.length / T = s := by rw [hs]; exact Nat.mul_div_cancel_left s h0
  have e2 : l.length % T = 0 := by rw [hs]; exact Nat.mul_mod_right T s
  have e3 : (l.flatMap f).length / T = s * c := by
    rw [length_flatMap_uniform f c hf, hs, Nat.mul_assoc]; exact Nat.mul_div_cancel_left _ h0
  have e4 : (l.flatMap f).length % T = 0 := by
    rw [length_flatMap_uniform f c hf, hs, Nat.mul_assoc]; exact Nat.mul_mod_right T _
  unfold staticPart
  rw [e1, e2, e3, e4]
  simp only [Nat.not_lt_zero, if_false, Nat.add_zero, Nat.min_zero]
  rw [← Nat.mul_assoc, drop_flatMap_uniform f c hf, take_flatMap_uniform f c hf]

/-- The static parts make up the list. -/
theorem staticPart_flatten {α : Type} (T : Nat) (hT : 0 < T) (l : List α) :
    (List.range T).flatMap (fun t => staticPart T t l) = l := by
  have key : ∀ n, n ≤ T → (List.range n).flatMap (fun t => staticPart T t l) =
      l.take (n * (l.length / T) + min n (l.length % T)) := by
    intro n hn
    induction n with
    | zero => simp
    | succ n ih =>
      rw [List.range_succ, List.flatMap_append, ih (by omega)]
      simp only [List.flatMap_cons, List.flatMap_nil, List.append_nil]
      unfold staticPart
      rw [← List.take_add]
      congr 1
      rw [Nat.succ_mul]
      split
      · rw [Nat.min_eq_left (by omega), Nat.min_eq_left (by omega)]; omega
      · rw [Nat.min_eq_right (by omega), Nat.min_eq_right (by omega)]; omega
  rw [key T le_rfl, List.take_of_length_le]
  have h1 := Nat.div_add_mod l.length T
  have h2 := Nat.mod_lt l.length hT
  rw [Nat.min_eq_right (by omega)]
  omega

theorem collapsedLoop_once (n2 n3 : Nat) : EachOnce (collapsedLoop M W n2 n3) := by
  unfold collapsedLoop
  constructor
  · refine List.nodup_flatMap.mpr ⟨?_, ?_⟩
    · rintro ⟨nu, i⟩ _
      refine List.nodup_flatMap.mpr ⟨?_, ?_⟩
      · intro j _
        exact (List.nodup_finRange _).map fun a b h => by simpa using h
      · refine (List.nodup_finRange _).pairwise_of_forall_ne ?_
        intro a _ b _ hab
        simp only [List.disjoint_left, List.mem_map, Function.onFun]
        rintro x ⟨l, _, rfl⟩ ⟨l', _, h⟩
        simp at h
        exact hab h.1.symm
    · refine List.Nodup.pairwise_of_forall_ne ?_ ?_
      · refine List.nodup_flatMap.mpr ⟨?_, ?_⟩
        · intro nu _
          exact (List.nodup_finRange _).map fun a b h => by simpa using h
        · refine (List.nodup_finRange _).pairwise_of_forall_ne ?_
          intro a _ b _ hab
          simp only [List.disjoint_left, List.mem_map, Function.onFun]
          rintro x ⟨l, _, rfl⟩ ⟨l', _, h⟩
          simp at h
          exact hab h.1.symm
      · rintro ⟨a1, a2⟩ _ ⟨b1, b2⟩ _ hab
        simp only [List.disjoint_left, List.mem_map, List.mem_flatMap, Function.onFun]
        rintro x ⟨j, _, l, _, rfl⟩ ⟨j', _, l', _, h⟩
        simp at h
        exact hab (by rw [h.1, h.2.1])
  · rintro ⟨nu, i, j, l⟩
    simp

theorem staticThreads_worksharing (T : Nat) (hT : 0 < T) : Worksharing (staticThreads M W B T) := by
  unfold Worksharing staticThreads
  simp only [List.flatMap_map]
  rw [staticPart_flatten T hT, staticPart_flatten T hT]
  exact ⟨collapsedLoop_once _ _, collapsedLoop_once _ _⟩

theorem staticThreads_aligned (T : Nat) (hT : T ∣ M * W) (h0 : 0 < T) : Aligned (staticThreads M W B T) := by
  intro t ht
  obtain ⟨n, _, rfl⟩ := List.mem_map.mp ht
  intro nu i j l h l'
  have hlen : ((List.finRange M).flatMap fun nu => (List.finRange W).map fun i => (nu, i)).length = M * W := by
    rw [length_flatMap_uniform _ W (by simp)]; simp
  have inner : ∀ (n2 n3 : Nat) (p : Fin M × Fin W),
      ((List.finRange n2).flatMap fun j => (List.finRange n3).map fun l => (p.1, p.2, j, l)).length = n2 * n3 := by
    intro n2 n3 p
    rw [length_flatMap_uniform _ n3 (by simp)]; simp
  simp only [collapsedLoop] at h ⊢
  rw [staticPart_flatMap _ _ (inner W B) _ T n (by rw [hlen]; exact hT) h0] at h
  rw [staticPart_flatMap _ _ (inner B B) _ T n (by rw [hlen]; exact hT) h0]
  simp only [List.mem_flatMap, List.mem_map] at h ⊢
  obtain ⟨p, hp, j', _, l'', _, e⟩ := h
  simp at e
  obtain ⟨rfl, rfl, _⟩ := e
  exact ⟨p, hp, l, List.mem_finRange l, l', List.mem_finRange l', rfl⟩

end Verif.Props
