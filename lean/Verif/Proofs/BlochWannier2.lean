import Verif.Proofs.BlochWannier

/-! Lemmas on the transform from Bloch states to Wannier functions: both ways of distributing the work. -/
namespace Verif.Props
open Verif.Model Verif.Spec

variable {E P M W B : Nat} {K Q : Type}

theorem finRange_sum {n : Nat} (f : Fin n → ℂ) : ((List.finRange n).map f).sum = ∑ i, f i := by
  rw [Fin.sum_univ_def]

/-- The part of `wannierCoupling` of one wavevector q. -/
theorem localRotated_val (c : CoarseData K Q E P M W B) (threads : K → Q → List (GaugeThread M W B))
    (hw : ∀ k q, Worksharing (threads k q)) (ha : ∀ k q, Aligned (threads k q)) (i j : Fin W) (mu : Fin M) (irP : Fin P)
    (irE : Fin E) (q : Q) :
    coarsePhPhase c irP q * localRotated c threads i j mu irE q = (c.ks.map fun k =>
    Complex.exp (-Complex.I * (vdot (c.kCart k) (c.elVectors irE) : ℂ)) / (c.ks.length : ℂ) *
    (Complex.exp (-Complex.I * (vdot (c.qCart q) (c.phVectors irP) : ℂ)) / (c.qs.length : ℂ)) *
    ∑ nu, wannierGauge (c.u (c.kPlusQ k q)) (c.u k) (fun l m nu => c.g l m nu k q) i j nu * (c.phEig q)⁻¹ nu mu).sum := by
  unfold localRotated coarseGauge coarsePhPhase coarseElPhase
  simp only [finRange_sum, hostPhase_eq, gaugeRotate_val _ (hw _ _) (ha _ _)]
  generalize (c.ks.length : ℂ) = N
  simp only [Complex.ofReal_neg, mul_neg, neg_mul]
  induction c.ks with
  | nil => simp
  | cons k l ih =>
    simp only [List.map_cons, List.sum_cons, add_mul, Finset.sum_add_distrib, mul_add]
    rw [ih, Finset.mul_sum, Finset.mul_sum]
    congr 1
    refine Finset.sum_congr rfl fun nu _ => ?_
    ring

theorem reduceOver_shares {ι : Type} [DecidableEq ι] (shares : List (List ι)) (l : List ι) (hl : l.Nodup)
    (hp : shares.flatten.Perm l) (f : ι → ℂ) (x : ι) (hx : x ∈ l) : reduceOver shares f x = f x :=
  reduceOver_val shares f x (hp.nodup_iff.mpr hl) (hp.mem_iff.mpr hx)

variable [DecidableEq K] [DecidableEq Q]

theorem blochToWannier_val (c : CoarseData K Q E P M W B) (hk : c.ks.Nodup) (hq : c.qs.Nodup)
    (threads : K → Q → List (GaugeThread M W B))
    (hw : ∀ k q, Worksharing (threads k q)) (ha : ∀ k q, Aligned (threads k q))
    (kShares : List (List K)) (qShares : List (List Q)) (eShares : List (List (Fin E)))
    (hks : kShares.flatten.Perm c.ks) (hqs : qShares.flatten.Perm c.qs) (hes : eShares.flatten.Perm (List.finRange E))
    (i j : Fin W) (mu : Fin M) (irP : Fin P) (irE : Fin E) :
    blochToWannier c threads kShares qShares eShares i j mu irP irE = wannierCoupling c i j mu irP irE := by
  unfold blochToWannier wannierCoupling
  rw [reduceOver_shares eShares _ (List.nodup_finRange E) hes _ _ (List.mem_finRange irE)]
  congr 1
  apply List.map_congr_left
  intro q hq'
  rw [← localRotated_val c threads hw ha, reduceOver_shares qShares _ hq hqs _ _ hq']
  congr 1
  unfold coarseRotated localRotated
  rw [reduceOver_shares qShares _ hq hqs _ _ hq']
  congr 1
  apply List.map_congr_left
  intro nu2 _
  rw [reduceOver_shares qShares _ hq hqs (fun q => (c.phEig q)⁻¹ nu2 mu) _ hq']
  congr 1
  unfold coarseMixed
  rw [reduceOver_shares qShares _ hq hqs _ _ hq']
  congr 1
  apply List.map_congr_left
  intro k hk'
  rw [reduceOver_shares qShares _ hq hqs _ _ hq', reduceOver_shares kShares _ hk hks (fun k => coarseElPhase c k irE) _ hk']

omit [DecidableEq K] [DecidableEq Q] in
theorem wannierCoupling_eq (c : CoarseData K Q E P M W B) (threads : K → Q → List (GaugeThread M W B))
    (hw : ∀ k q, Worksharing (threads k q)) (ha : ∀ k q, Aligned (threads k q)) (i j : Fin W) (mu : Fin M) (irP : Fin P)
    (irE : Fin E) : wannierCoupling c i j mu irP irE =
      (c.qs.map fun q => coarsePhPhase c irP q * localRotated c threads i j mu irE q).sum := by
  unfold wannierCoupling
  simp only [localRotated_val c threads hw ha]

/-- Reading lists by position, one position of all of them after the other, is adding them up. -/
theorem sum_positions {α : Type} (lists : List (List α)) (n : Nat) (hn : ∀ l ∈ lists, l.length ≤ n) (f : α → ℂ) :
    ((List.range n).map fun i => (lists.map fun l => match l[i]? with | none => 0 | some x => f x).sum).sum =
      (lists.flatten.map f).sum := by
  have one : ∀ (l : List α) (n : Nat), l.length ≤ n →
      ((List.range n).map fun i => match l[i]? with | none => (0 : ℂ) | some x => f x).sum = (l.map f).sum := by
    intro l
    induction l with
    | nil => intro n _; simp
    | cons a l ih =>
      intro n hn
      cases n with
      | zero => simp at hn
      | succ n =>
        rw [List.range_succ_eq_map]
        simp only [List.map_cons, List.sum_cons, List.map_map]
        congr 1
        refine Eq.trans ?_ (ih n (by simpa using hn))
        rfl
  induction lists with
  | nil => simp
  | cons l ls ih =>
    have h2 := ih fun l hl => hn l (List.mem_cons_of_mem _ hl)
    simp only [List.map_cons, List.sum_cons, List.flatten_cons, List.map_append, List.sum_append]
    rw [← h2, ← one l n (hn l List.mem_cons_self)]
    exact List.sum_map_add

theorem foldl_max_ge (l : List Nat) (a : Nat) : a ≤ l.foldl max a ∧ ∀ x ∈ l, x ≤ l.foldl max a := by
  induction l generalizing a with
  | nil => simp
  | cons b l ih =>
    have := ih (max a b)
    simp only [List.foldl_cons]
    refine ⟨by omega, ?_⟩
    intro x hx
    rcases List.mem_cons.mp hx with rfl | hx
    · omega
    · exact this.2 x hx

omit [DecidableEq K] [DecidableEq Q] in
theorem blochToWannierEfficient_val (c : CoarseData K Q E P M W B) (threads : K → Q → List (GaugeThread M W B))
    (hw : ∀ k q, Worksharing (threads k q)) (ha : ∀ k q, Aligned (threads k q))
    (stars : List (List Q)) (hstars : stars.flatten.Perm c.qs) (size rank fuel : Nat) (hr : rank < size)
    (hfiles : size ≤ stars.length) (hE : size ≤ E) (hfit1 : E * size < 18446744073709551616)
    (hfit2 : stars.length * size < 18446744073709551616) (hfuel : E < fuel) :
    ∃ result, blochToWannierEfficient c threads stars size rank fuel = .ok result ∧
      ∀ (irE : Fin E), head E size rank ≤ irE → irE < head E size (rank + 1) →
        ∀ i j mu irP, result i j mu irP (irE - head E size rank) = wannierCoupling c i j mu irP irE := by
  have hs : 0 < size := by omega
  have hlt : head E size rank < head E size (rank + 1) := by
    have := len_bounds E size rank (by omega)
    have h1 : 1 ≤ E / size := (Nat.one_le_div_iff hs).mpr hE
    omega
  obtain ⟨chunks, hc1, hc2, _, _⟩ := splitVector_spec (List.range E) (E / size) (Nat.div_pos hE hs)
  have hchunks : splitVector fuel (List.range E) (E / size) = .ok chunks := hc1 fuel (by simpa using hfuel)
  have hfilesval : mapOutcome (fun r => divideWorkIter stars.length r size) (List.range size) =
      .ok ((List.range size).map fun r => List.range' (head stars.length size r)
        (head stars.length size (r + 1) - head stars.length size r)) := by
    apply mapOutcome_eq_map
    intro r hr
    exact divideWorkIter_val hfit2 (List.mem_range.mp hr)
  have hfl : ((List.range size).map fun r => List.range' (head stars.length size r)
      (head stars.length size (r + 1) - head stars.length size r)).flatten = List.range stars.length := by
    rw [← List.flatMap_def, flatMap_ranges, head_last stars.length size hs]
  obtain ⟨n, hn⟩ : ∃ n, head E size (rank + 1) - head E size rank = n + 1 := ⟨_, (Nat.succ_pred_eq_of_pos (by omega)).symm⟩
  unfold blochToWannierEfficient
  rw [if_neg (by omega)]
  simp only [divideWorkIter_val hfit1 hr, hfilesval, hchunks, Outcome.bind_eq, Outcome.bind_ok, hn, List.range'_succ]
  refine ⟨_, rfl, ?_⟩
  intro irE h1 h2 i j mu irP
  set files := (List.range size).map fun r => List.range' (head stars.length size r)
      (head stars.length size (r + 1) - head stars.length size r) with hfdef
  set loopSize := (files.map List.length).foldl max 0
  have hbound : ∀ l ∈ files, l.length ≤ loopSize := fun l hl =>
    (foldl_max_ge (files.map List.length) 0).2 _ (List.mem_map_of_mem hl)
  -- the sum over the chunks has one term
  have hsum : ∀ F : Nat → ℂ, (chunks.map fun chunk => (chunk.map fun irE' =>
      if irE' ∈ head E size rank :: List.range' (head E size rank + 1) n ∧ irE' - head E size rank = irE - head E size rank
        then F irE' else 0).sum).sum = F irE := by
    intro F
    rw [sum_map_flatMap chunks (fun x => x), show chunks.flatMap (fun x => x) = chunks.flatten by simp [List.flatMap], hc2]
    have : ∀ x ∈ List.range E, (if x ∈ head E size rank :: List.range' (head E size rank + 1) n ∧
        x - head E size rank = irE - head E size rank then F x else 0) = if x = (irE : Nat) then F irE else 0 := by
      intro x _
      have hmem : x ∈ head E size rank :: List.range' (head E size rank + 1) n ↔
          head E size rank ≤ x ∧ x < head E size rank + 1 + n := by
        simp [List.mem_range'_1]; omega
      by_cases hx : x = (irE : Nat)
      · subst hx
        rw [if_pos ⟨hmem.mpr ⟨h1, by omega⟩, rfl⟩, if_pos rfl]
      · rw [if_neg hx, if_neg]
        rintro ⟨a, b⟩
        have := hmem.mp a
        omega
    rw [List.map_congr_left this]
    have h3 := List.sum_toFinset (fun x => if x = (irE : Nat) then F irE else 0) (List.nodup_range (n := E))
    rw [← h3]
    simp
  simp only [hsum]
  simp only [irE.2, dite_true, Fin.eta]
  have e1 := sum_positions files loopSize hbound fun iqIrr => ((stars.getD iqIrr []).map fun q =>
    coarsePhPhase c irP q * localRotated c threads i j mu irE q).sum
  refine Eq.trans (Eq.trans ?_ e1) ?_
  · congr 1
    apply List.map_congr_left
    intro a _
    congr 1
    apply List.map_congr_left
    intro l _
    cases l[a]? <;> rfl
  · rw [hfl, wannierCoupling_eq c threads hw ha, ← (hstars.map _).sum_eq]
    have : (List.range stars.length).map (fun iqIrr => stars.getD iqIrr []) = stars := by
      apply List.ext_getElem
      · simp
      · intro i h1 h2; simp at h1; simp [h1]
    rw [show ((List.range stars.length).map fun iqIrr => ((stars.getD iqIrr []).map fun q =>
      coarsePhPhase c irP q * localRotated c threads i j mu irE q).sum) =
      (((List.range stars.length).map (fun iqIrr => stars.getD iqIrr [])).map fun s => (s.map fun q =>
      coarsePhPhase c irP q * localRotated c threads i j mu irE q).sum) by rw [List.map_map]; rfl, this]
    rw [sum_map_flatMap stars (fun x => x), show stars.flatMap (fun x => x) = stars.flatten by simp [List.flatMap]]

end Verif.Props
