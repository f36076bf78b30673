import Verif.Spec.Phono3py
import Verif.Proofs.Sheng
import Verif.Proofs.DynMat
import Verif.Proofs.WsWeights

/-! Lemmas on the force constants from phono3py. -/
namespace Verif.Props
open Verif.Model Verif.Spec

theorem collect_val {α β : Type} (f : α → Outcome (List β)) (g : α → List β) (l : List α) (h : ∀ a ∈ l, f a = .ok (g a)) :
    collect f l = .ok (l.flatMap g) := by
  induction l with
  | nil => rfl
  | cons a l ih =>
    simp only [collect]
    rw [h a List.mem_cons_self, ih fun a ha => h a (List.mem_cons_of_mem _ ha)]
    rfl

theorem mem_p3Box (N n : V3 Int) : n ∈ p3Box N ↔
    (-2 * N.x ≤ n.x ∧ n.x < 2 * N.x) ∧ (-2 * N.y ≤ n.y ∧ n.y < 2 * N.y) ∧ (-2 * N.z ≤ n.z ∧ n.z < 2 * N.z) := by
  have hr (k x : Int) : x ∈ p3Range k ↔ -2 * k ≤ x ∧ x < 2 * k := by
    simp only [p3Range, List.mem_map, List.mem_range]
    constructor
    · rintro ⟨j, hj, rfl⟩; omega
    · rintro ⟨h1, h2⟩; exact ⟨(x + 2 * k).toNat, by omega, by omega⟩
  unfold p3Box
  simp only [List.mem_flatMap, hr]
  constructor
  · rintro ⟨z, hz, y, hy, hn⟩
    obtain ⟨x, hx, rfl⟩ := List.mem_map.mp hn
    exact ⟨(hr _ _).mp hx, hy, hz⟩
  · rintro ⟨hx, hy, hz⟩
    exact ⟨n.z, hz, n.y, hy, List.mem_map.mpr ⟨n.x, (hr _ _).mpr hx, rfl⟩⟩

theorem nodup_p3Box (N : V3 Int) : (p3Box N).Nodup := by
  have hr (k : Int) : (p3Range k).Nodup := by
    unfold p3Range
    refine List.Nodup.map ?_ List.nodup_range
    intro a b h
    simp only at h
    omega
  unfold p3Box
  refine List.nodup_flatMap.mpr ⟨fun z _ => List.nodup_flatMap.mpr ⟨fun y _ => ?_, ?_⟩, ?_⟩
  · refine List.Nodup.map ?_ (hr _)
    intro a b h
    exact congrArg V3.x h
  · refine (hr _).imp_of_mem ?_
    intro y y' _ _ hne n hn hn'
    obtain ⟨x, _, rfl⟩ := List.mem_map.mp hn
    obtain ⟨x', _, h⟩ := List.mem_map.mp hn'
    exact hne (congrArg V3.y h).symm
  · refine (hr _).imp_of_mem ?_
    intro z z' _ _ hne n hn hn'
    obtain ⟨y, _, hn⟩ := List.mem_flatMap.mp hn
    obtain ⟨y', _, hn'⟩ := List.mem_flatMap.mp hn'
    obtain ⟨x, _, rfl⟩ := List.mem_map.mp hn
    obtain ⟨x', _, h⟩ := List.mem_map.mp hn'
    exact hne (congrArg V3.z h).symm

theorem sum_p3Box {M : Type} [AddCommMonoid M] (N : V3 Int) (g : V3 Int → M) :
    ∑ n ∈ cellBox N, g ⟨n.1, n.2.1, n.2.2⟩ = ((p3Box N).map g).sum := by
  classical
  rw [← List.sum_toFinset _ (nodup_p3Box N)]
  refine Finset.sum_nbij' (fun n => (⟨n.1, n.2.1, n.2.2⟩ : V3 Int)) (fun n => (n.x, n.y, n.z)) ?_ ?_ ?_ ?_ ?_
  · intro n hn
    simp only [cellBox, Finset.mem_product, Finset.mem_Ico] at hn
    simp only [List.mem_toFinset, mem_p3Box]
    exact hn
  · intro n hn
    simp only [List.mem_toFinset, mem_p3Box] at hn
    simp only [cellBox, Finset.mem_product, Finset.mem_Ico]
    exact hn
  · intro n _; rfl
  · intro n _; rfl
  · intro n _; rfl

theorem mem_p3Vectors {A : Nat} (d : Mat3) (pos : Fin A → Vec3) (N : V3 Int) (v : Vec3) : v ∈ p3Vectors d pos N ↔
    ∃ n ∈ p3Box N, latVec d n = v ∧ ∃ na nb, 0 < p3Weight d pos N v na nb := by
  classical
  unfold p3Vectors p3Inserted
  simp only [List.mem_map, Finset.mem_sort, List.mem_toFinset, List.mem_flatMap, List.mem_filter, List.mem_finRange, true_and,
    decide_eq_true_eq]
  constructor
  · rintro ⟨_, ⟨w, ⟨na, nb, ⟨n, hn, rfl⟩, hw⟩, rfl⟩, rfl⟩
    exact ⟨n, hn, rfl, na, nb, hw⟩
  · rintro ⟨n, hn, rfl, na, nb, hw⟩
    exact ⟨_, ⟨latVec d n, ⟨na, nb, ⟨n, hn, rfl⟩, hw⟩, rfl⟩, rfl⟩

theorem nodup_p3Vectors {A : Nat} (d : Mat3) (pos : Fin A → Vec3) (N : V3 Int) : (p3Vectors d pos N).Nodup := by
  classical
  unfold p3Vectors
  exact List.Nodup.map ofLex.injective (Finset.sort_nodup _ _)

theorem p3WeightLoop_nonneg (r : Vec3) (l : List Vec3) : ∀ k, 0 ≤ p3WeightLoop r l k := by
  induction l with
  | nil => intro k; simp [p3WeightLoop]
  | cons g l ih =>
    intro k
    simp only [p3WeightLoop]
    split_ifs
    · exact le_refl _
    · exact ih _
    · exact ih _

theorem p3Weight_nonneg {A : Nat} (d : Mat3) (pos : Fin A → Vec3) (N : V3 Int) (v : Vec3) (na nb : Fin A) :
    0 ≤ p3Weight d pos N v na nb := p3WeightLoop_nonneg _ _ _

theorem p3Fold_nat (n : Nat) (x : Int) : p3Fold n x = foldCell n x := rfl

theorem p3Fold_spec (n : Int) (hn : 0 < n) (x : Int) : 0 ≤ p3Fold n x ∧ p3Fold n x < n ∧ n ∣ x - p3Fold n x := by
  obtain ⟨k, rfl⟩ := Int.eq_ofNat_of_zero_le hn.le
  haveI : NeZero k := ⟨by omega⟩
  rw [p3Fold_nat]
  have h := foldCell_range k x
  refine ⟨h.1, h.2, ?_⟩
  rw [foldCell_eq]
  exact Int.dvd_self_sub_emod

/-- The place of a vector in a list. -/
theorem findIdx_vector (l : List Vec3) (hl : l.Nodup) (v : Vec3) :
    (v ∉ l → (open Classical in l.findIdx? fun w => decide (w = v)) = none) ∧
    (∀ i, l[i]? = some v → (open Classical in l.findIdx? fun w => decide (w = v)) = some i) := by
  classical
  constructor
  · intro h
    rw [List.findIdx?_eq_none_iff]
    intro w hw
    simp only [decide_eq_false_iff_not]
    rintro rfl
    exact h hw
  · intro i hi
    obtain ⟨hi', e⟩ := List.getElem?_eq_some_iff.mp hi
    rw [List.findIdx?_eq_some_iff_getElem]
    refine ⟨hi', by simpa using e, fun j hj => ?_⟩
    simp only [decide_eq_true_eq]
    intro h
    have := (List.Nodup.getElem_inj_iff hl).mp (h.trans e.symm)
    omega

theorem findIndexRow_cells (d : Mat3) (hap : LatticeApart d) (order : List (V3 Int)) (hnd : order.Nodup) (n : V3 Int) (s : Nat)
    (hs : order[s]? = some n) : findIndexRow (order.map (latVec d)) (latVec d n) = .ok s := by
  classical
  have hf : ((order.map (latVec d)).findIdx? fun c => decide (norm3 (fun i => latVec d n i - c i) < 1.0e-12)) = some s := by
    obtain ⟨hi', e⟩ := List.getElem?_eq_some_iff.mp hs
    rw [List.findIdx?_eq_some_iff_getElem]
    refine ⟨by simpa using hi', ?_, fun j hj => ?_⟩
    · simp only [List.getElem_map, e, sub_self, norm3_zero, decide_eq_true_eq]
      norm_num
    · simp only [List.getElem_map, decide_eq_true_eq, not_lt]
      refine hap _ _ ?_
      intro h
      have := (List.Nodup.getElem_inj_iff hnd).mp (e.trans h)
      omega
  unfold findIndexRow
  rw [hf]

theorem latVec_inj (d : Mat3) (hap : LatticeApart d) {n n' : V3 Int} (h : latVec d n = latVec d n') : n = n' := by
  by_contra hne
  have := hap n n' hne
  rw [h] at this
  simp only [sub_self, norm3_zero] at this
  norm_num at this

theorem order_of_fold {N : V3 Int} {order : List (V3 Int)} (ho : IsOrder N order) (hx : 0 < N.x) (hy : 0 < N.y) (hz : 0 < N.z) (n : V3 Int) :
    ∃ s : Nat, order[s]? = some (⟨p3Fold N.x n.x, p3Fold N.y n.y, p3Fold N.z n.z⟩ : V3 Int) := by
  have h1 := p3Fold_spec N.x hx n.x
  have h2 := p3Fold_spec N.y hy n.y
  have h3 := p3Fold_spec N.z hz n.z
  have : (⟨p3Fold N.x n.x, p3Fold N.y n.y, p3Fold N.z n.z⟩ : V3 Int) ∈ order :=
    (ho.mem _).mpr ⟨⟨h1.1, h1.2.1⟩, ⟨h2.1, h2.2.1⟩, ⟨h3.1, h3.2.1⟩⟩
  obtain ⟨s, hs, e⟩ := List.getElem_of_mem this
  exact ⟨s, by rw [List.getElem?_eq_getElem hs, e]⟩

/-- The additions for one pair of vectors. -/
noncomputable def atomEntries {A : Nat} (d : Mat3) (pos : Fin A → Vec3) (N : V3 Int) (Phi : ForceConstants A) (conv : ℝ) (n m : V3 Int)
    (iR2 iR3 : Nat) : List P3Entry :=
  (List.finRange A).flatMap fun na => (List.finRange A).flatMap fun nb => (List.finRange A).flatMap fun nc => open Classical in
    if p3Weight d pos N (latVec d n) na nb = 0 ∨ p3Weight d pos N (latVec d m) na nc = 0 then []
    else [⟨na, nb, nc, iR3, iR2, fun i j k => Phi na nb n nc m i j k * conv⟩]

theorem p3Atoms_val {A : Nat} (d : Mat3) (pos : Fin A → Vec3) (N : V3 Int) (order : List (V3 Int)) (Phi : ForceConstants A)
    (f : Fc3File) (hf : IsFc3File order Phi f) (hP : PeriodicFc N Phi) (hint : ((A * order.length : Nat) : Int) ≤ intMax) (conv : ℝ) (n m : V3 Int) (iR2 iR3 s2 s3 : Nat)
    (hN : 0 < N.x ∧ 0 < N.y ∧ 0 < N.z)
    (h2 : order[s2]? = some ⟨p3Fold N.x n.x, p3Fold N.y n.y, p3Fold N.z n.z⟩)
    (h3 : order[s3]? = some ⟨p3Fold N.x m.x, p3Fold N.y m.y, p3Fold N.z m.z⟩) :
    p3Atoms d pos N f conv (latVec d n) (latVec d m) iR2 iR3 s2 s3 = .ok (atomEntries d pos N Phi conv n m iR2 iR3) := by
  classical
  have l2 := (List.getElem?_eq_some_iff.mp h2).1
  have l3 := (List.getElem?_eq_some_iff.mp h3).1
  have bound (b : Fin A) (s : Nat) (hs : s < order.length) : (b : Nat) * order.length + s < A * order.length := by
    calc (b : Nat) * order.length + s < (b : Nat) * order.length + order.length := by omega
      _ = (b + 1) * order.length := by ring
      _ ≤ A * order.length := Nat.mul_le_mul_right _ b.isLt
  have hsat (b : Fin A) (s : Nat) (hs : s < order.length) : superAtom f b s = .ok (((b : Nat) * order.length + s : Nat) : Int) := by
    unfold superAtom
    rw [hf.map, List.getElem?_map, List.getElem?_range b.isLt]
    simp only [Option.map_some]
    have := bound b s hs
    have hm : intMin ≤ 0 := by decide
    rw [cadd_ok (by omega) (by omega)]
    push_cast
    rfl
  unfold p3Atoms atomEntries
  refine collect_val _ _ _ fun na _ => collect_val _ _ _ fun nb _ => ?_
  by_cases w2 : p3Weight d pos N (latVec d n) na nb = 0
  · rw [if_pos w2]
    simp [w2]
  · rw [if_neg w2]
    refine collect_val _ _ _ fun nc _ => ?_
    by_cases w3 : p3Weight d pos N (latVec d m) na nc = 0
    · rw [if_pos w3, if_pos (Or.inr w3)]
    · rw [if_neg w3, if_neg (by tauto)]
      have b1 := bound na 0 (by omega)
      have b2 := bound nb s2 l2
      have b3 := bound nc s3 l3
      rw [hsat na 0 (by omega), hsat nb s2 l2, hsat nc s3 l3]
      simp only [Outcome.bind_eq, Outcome.bind_ok]
      unfold Fc3File.at3
      rw [hf.size0, hf.size1, hf.size2, if_pos (by omega), Outcome.bind_ok]
      have hv := hf.val na nb nc s2 s3 _ _ h2 h3
      have e1 : (((na : Nat) * order.length + 0 : Nat) : Int).toNat = (na : Nat) * order.length := by omega
      rw [e1, Int.toNat_natCast, Int.toNat_natCast, hv]
      have f1 := (p3Fold_spec N.x hN.1 n.x).2.2
      have f2 := (p3Fold_spec N.y hN.2.1 n.y).2.2
      have f3 := (p3Fold_spec N.z hN.2.2 n.z).2.2
      have g1 := (p3Fold_spec N.x hN.1 m.x).2.2
      have g2 := (p3Fold_spec N.y hN.2.1 m.y).2.2
      have g3 := (p3Fold_spec N.z hN.2.2 m.z).2.2
      rw [hP na nb nc n ⟨p3Fold N.x n.x, p3Fold N.y n.y, p3Fold N.z n.z⟩ m ⟨p3Fold N.x m.x, p3Fold N.y m.y, p3Fold N.z m.z⟩ f1 f2 f3 g1 g2 g3]

/-- All the additions. -/
noncomputable def allEntries {A : Nat} (d : Mat3) (pos : Fin A → Vec3) (N : V3 Int) (Phi : ForceConstants A) (conv : ℝ) : List P3Entry :=
  (p3Box N).flatMap fun n => (p3Box N).flatMap fun m => open Classical in
    match (p3Vectors d pos N).findIdx? fun v => decide (v = latVec d n), (p3Vectors d pos N).findIdx? fun v => decide (v = latVec d m) with
    | some iR2, some iR3 => atomEntries d pos N Phi conv n m iR2 iR3
    | _, _ => []

theorem p3Entries_val {A : Nat} (d : Mat3) (hap : LatticeApart d) (pos : Fin A → Vec3) (N : V3 Int) (hN : 0 < N.x ∧ 0 < N.y ∧ 0 < N.z)
    (order : List (V3 Int)) (ho : IsOrder N order) (Phi : ForceConstants A)
    (f : Fc3File) (hf : IsFc3File order Phi f) (hP : PeriodicFc N Phi) (hint : ((A * order.length : Nat) : Int) ≤ intMax) (conv : ℝ) :
    p3Entries d pos N (order.map (latVec d)) f conv = .ok (allEntries d pos N Phi conv) := by
  classical
  unfold p3Entries allEntries
  refine collect_val _ _ _ fun n _ => ?_
  obtain ⟨s2, h2⟩ := order_of_fold ho hN.1 hN.2.1 hN.2.2 n
  cases e2 : (p3Vectors d pos N).findIdx? fun v => decide (v = latVec d n) with
  | none => simp
  | some iR2 =>
    simp only
    rw [show p3Folded d N n = latVec d ⟨p3Fold N.x n.x, p3Fold N.y n.y, p3Fold N.z n.z⟩ from rfl,
      findIndexRow_cells d hap order ho.nodup _ s2 h2, Outcome.bind_eq, Outcome.bind_ok]
    refine collect_val _ _ _ fun m _ => ?_
    obtain ⟨s3, h3⟩ := order_of_fold ho hN.1 hN.2.1 hN.2.2 m
    cases e3 : (p3Vectors d pos N).findIdx? fun v => decide (v = latVec d m) with
    | none => simp
    | some iR3 =>
      simp only
      rw [show p3Folded d N m = latVec d ⟨p3Fold N.x m.x, p3Fold N.y m.y, p3Fold N.z m.z⟩ from rfl,
        findIndexRow_cells d hap order ho.nodup _ s3 h3, Outcome.bind_eq, Outcome.bind_ok]
      exact p3Atoms_val d pos N order Phi f hf hP hint conv n m iR2 iR3 s2 s3 hN h2 h3

theorem list_sum_one {α M : Type} [AddCommMonoid M] (l : List α) (hl : l.Nodup) (a : α) (ha : a ∈ l) (g : α → M)
    (h : ∀ b ∈ l, b ≠ a → g b = 0) : (l.map g).sum = g a := by
  classical
  rw [← List.sum_toFinset _ hl]
  exact Finset.sum_eq_single a (fun b hb hne => h b (List.mem_toFinset.mp hb) hne) (fun hn => absurd (List.mem_toFinset.mpr ha) hn)

theorem atomEntries_key {A : Nat} (d : Mat3) (pos : Fin A → Vec3) (N : V3 Int) (Phi : ForceConstants A) (conv : ℝ) (n m : V3 Int)
    (iR2 iR3 : Nat) (e : P3Entry) (he : e ∈ atomEntries d pos N Phi conv n m iR2 iR3) : e.iR2 = iR2 ∧ e.iR3 = iR3 := by
  classical
  unfold atomEntries at he
  obtain ⟨na, _, he⟩ := List.mem_flatMap.mp he
  obtain ⟨nb, _, he⟩ := List.mem_flatMap.mp he
  obtain ⟨nc, _, he⟩ := List.mem_flatMap.mp he
  split_ifs at he with hw
  · simp at he
  · rw [List.mem_singleton] at he
    rw [he]
    exact ⟨rfl, rfl⟩

theorem atomEntries_sum {A : Nat} (d : Mat3) (pos : Fin A → Vec3) (N : V3 Int) (Phi : ForceConstants A) (conv : ℝ) (n m : V3 Int)
    (r2 r3 : Nat) (b1 b2 b3 : Fin A) (i j k : Fin 3) :
    p3Tensor (atomEntries d pos N Phi conv n m r2 r3) (3 * b1 + i) (3 * b2 + j) (3 * b3 + k) r3 r2 =
      open Classical in if p3Weight d pos N (latVec d n) b1 b2 = 0 ∨ p3Weight d pos N (latVec d m) b1 b3 = 0 then 0
        else Phi b1 b2 n b3 m i j k * conv := by
  classical
  have q (b : Fin A) (c : Fin 3) : (3 * (b : Nat) + c) / 3 = b := by omega
  have hm (b : Fin A) (c : Fin 3) : (⟨(3 * (b : Nat) + c) % 3, Nat.mod_lt _ (by norm_num)⟩ : Fin 3) = c := by
    apply Fin.ext
    simp only
    omega
  unfold p3Tensor atomEntries
  simp only [q, hm]
  rw [sum_flatMap_map, list_sum_one _ (List.nodup_finRange A) b1 (List.mem_finRange _)]
  · rw [sum_flatMap_map, list_sum_one _ (List.nodup_finRange A) b2 (List.mem_finRange _)]
    · rw [sum_flatMap_map, list_sum_one _ (List.nodup_finRange A) b3 (List.mem_finRange _)]
      · split_ifs with hw
        · rfl
        · simp
      · intro b _ hb
        split_ifs with hw
        · rfl
        · have : ¬ ((b3 : Nat) = b) := fun h => hb (Fin.ext h.symm)
          simp [this]
    · intro b _ hb
      rw [sum_flatMap_map]
      apply List.sum_eq_zero
      intro x hx
      obtain ⟨c, _, rfl⟩ := List.mem_map.mp hx
      have : ¬ ((b2 : Nat) = b) := fun h => hb (Fin.ext h.symm)
      split_ifs with hw
      · rfl
      · simp [this]
  · intro b _ hb
    have : ¬ ((b1 : Nat) = b) := fun h => hb (Fin.ext h.symm)
    rw [sum_flatMap_map]
    apply List.sum_eq_zero
    intro x hx
    obtain ⟨c, _, rfl⟩ := List.mem_map.mp hx
    rw [sum_flatMap_map]
    apply List.sum_eq_zero
    intro x hx
    obtain ⟨c', _, rfl⟩ := List.mem_map.mp hx
    split_ifs with hw
    · rfl
    · simp [this]

theorem p3Tensor_val {A : Nat} (d : Mat3) (hap : LatticeApart d) (pos : Fin A → Vec3) (N : V3 Int) (Phi : ForceConstants A) (conv : ℝ)
    (n m : V3 Int) (hn : n ∈ p3Box N) (hm : m ∈ p3Box N) (r2 r3 : Nat) (h2 : (p3Vectors d pos N)[r2]? = some (latVec d n))
    (h3 : (p3Vectors d pos N)[r3]? = some (latVec d m)) (b1 b2 b3 : Fin A) (i j k : Fin 3) :
    p3Tensor (allEntries d pos N Phi conv) (3 * b1 + i) (3 * b2 + j) (3 * b3 + k) r3 r2 =
      open Classical in if p3Weight d pos N (latVec d n) b1 b2 = 0 ∨ p3Weight d pos N (latVec d m) b1 b3 = 0 then 0
        else Phi b1 b2 n b3 m i j k * conv := by
  classical
  have hnd := nodup_p3Vectors d pos N
  have f2 := (findIdx_vector _ hnd (latVec d n)).2 r2 h2
  have f3 := (findIdx_vector _ hnd (latVec d m)).2 r3 h3
  -- the place of another vector is another one
  have other (n n' : V3 Int) (r r' : Nat) (hr : (p3Vectors d pos N)[r]? = some (latVec d n)) (hne : n' ≠ n)
      (h : ((p3Vectors d pos N).findIdx? fun v => decide (v = latVec d n')) = some r') : r' ≠ r := by
    rintro rfl
    rw [List.findIdx?_eq_some_iff_getElem] at h
    obtain ⟨hl, e, -⟩ := h
    simp only [decide_eq_true_eq] at e
    rw [List.getElem?_eq_getElem hl, e, Option.some.injEq] at hr
    exact hne (latVec_inj d hap hr)
  have zero (es : List P3Entry) (h : ∀ e ∈ es, e.iR2 ≠ r2 ∨ e.iR3 ≠ r3) (i1 i2 i3 : Nat) : (es.map fun e =>
      if i1 / 3 = e.na ∧ i2 / 3 = e.nb ∧ i3 / 3 = e.nc ∧ r3 = e.iR3 ∧ r2 = e.iR2 then
      e.val ⟨i1 % 3, Nat.mod_lt _ (by norm_num)⟩ ⟨i2 % 3, Nat.mod_lt _ (by norm_num)⟩ ⟨i3 % 3, Nat.mod_lt _ (by norm_num)⟩ else 0).sum = 0 := by
    apply List.sum_eq_zero
    intro x hx
    obtain ⟨e, he, rfl⟩ := List.mem_map.mp hx
    rw [if_neg]
    rintro ⟨-, -, -, g3, g2⟩
    rcases h e he with g | g
    · exact g g2.symm
    · exact g g3.symm
  rw [← atomEntries_sum d pos N Phi conv n m r2 r3 b1 b2 b3 i j k]
  unfold p3Tensor allEntries
  rw [sum_flatMap_map, list_sum_one _ (nodup_p3Box N) n hn]
  · rw [sum_flatMap_map, list_sum_one _ (nodup_p3Box N) m hm]
    · rw [f2, f3]
    · intro m' _ hne
      rw [f2]
      cases e : (p3Vectors d pos N).findIdx? fun v => decide (v = latVec d m') with
      | none => rfl
      | some r' =>
        refine zero _ (fun x hx => Or.inr ?_) _ _ _
        rw [(atomEntries_key _ _ _ _ _ _ _ _ _ _ hx).2]
        exact other m m' r3 r' h3 hne e
  · intro n' _ hne
    rw [sum_flatMap_map]
    apply List.sum_eq_zero
    intro x hx
    obtain ⟨m', _, rfl⟩ := List.mem_map.mp hx
    cases e : (p3Vectors d pos N).findIdx? fun v => decide (v = latVec d n') with
    | none => rfl
    | some r' =>
      cases e' : (p3Vectors d pos N).findIdx? fun v => decide (v = latVec d m') with
      | none => rfl
      | some r'' =>
        refine zero _ (fun x hx => Or.inl ?_) _ _ _
        rw [(atomEntries_key _ _ _ _ _ _ _ _ _ _ hx).1]
        exact other n n' r2 r' h2 hne e

theorem p3Weights_val {A : Nat} (d : Mat3) (pos : Fin A → Vec3) (N : V3 Int) (r : Nat) (R : Vec3) (h : (p3Vectors d pos N)[r]? = some R)
    (b b' : Fin A) (c c' : Fin 3) : p3Weights d pos N r ((3 * b + c) / 3) ((3 * b' + c') / 3) = p3Weight d pos N R b b' := by
  have q (b : Fin A) (c : Fin 3) : (3 * (b : Nat) + c) / 3 = b := by omega
  rw [q, q]
  unfold p3Weights
  rw [dif_pos ⟨b.isLt, b'.isLt⟩, h]
  simp only [Fin.eta]
  have := p3Weight_nonneg d pos N R b b'
  split_ifs with hp
  · rfl
  · linarith

/-- The sum over the list of vectors is the sum over the cells. -/
theorem sum_vectors {A : Nat} (d : Mat3) (hap : LatticeApart d) (pos : Fin A → Vec3) (N : V3 Int) (H : Nat → ℂ) (G : V3 Int → ℂ)
    (hG : ∀ n ∈ p3Box N, ∀ r : Nat, (p3Vectors d pos N)[r]? = some (latVec d n) → H r = G n)
    (h0 : ∀ n ∈ p3Box N, latVec d n ∉ p3Vectors d pos N → G n = 0) :
    ∑ r ∈ Finset.range (p3Vectors d pos N).length, H r = ∑ n ∈ cellBox N, G ⟨n.1, n.2.1, n.2.2⟩ := by
  classical
  have ex (r : Nat) : ∃ n : V3 Int, r < (p3Vectors d pos N).length → n ∈ p3Box N ∧ (p3Vectors d pos N)[r]? = some (latVec d n) := by
    by_cases hr : r < (p3Vectors d pos N).length
    · obtain ⟨n, hn, e, -⟩ := (mem_p3Vectors d pos N _).mp (List.getElem_mem hr)
      exact ⟨n, fun _ => ⟨hn, by rw [List.getElem?_eq_getElem hr, e]⟩⟩
    · exact ⟨⟨0, 0, 0⟩, fun h => absurd h hr⟩
  choose e he using ex
  refine Finset.sum_of_injOn (fun r => ((e r).x, (e r).y, (e r).z)) ?_ ?_ ?_ ?_
  · intro r hr r' hr' h
    simp only [Finset.coe_range, Set.mem_Iio] at hr hr'
    simp only [Prod.mk.injEq] at h
    have hee : e r = e r' := by
      cases hh : e r; cases hh' : e r'
      simp_all
    have h1 := (he r hr).2
    have h2 := (he r' hr').2
    rw [hee, ← h2] at h1
    exact (List.getElem?_inj hr (nodup_p3Vectors d pos N)).mp h1
  · intro r hr
    simp only [Finset.coe_range, Set.mem_Iio] at hr
    have := (mem_p3Box N _).mp (he r hr).1
    simp only [cellBox, Finset.coe_product, Set.mem_prod, Finset.mem_coe, Finset.mem_Ico]
    exact this
  · intro n hn hni
    have hnb : (⟨n.1, n.2.1, n.2.2⟩ : V3 Int) ∈ p3Box N := by
      simp only [cellBox, Finset.mem_product, Finset.mem_Ico] at hn
      exact (mem_p3Box N _).mpr hn
    refine h0 _ hnb fun hmem => hni ?_
    obtain ⟨r, hr, er⟩ := List.getElem_of_mem hmem
    refine ⟨r, by simpa using hr, ?_⟩
    have h1 := (he r hr).2
    rw [List.getElem?_eq_getElem hr, er, Option.some.injEq] at h1
    have h2 := latVec_inj d hap h1
    show ((e r).x, (e r).y, (e r).z) = n
    rw [← h2]
  · intro r hr
    have := he r (Finset.mem_range.mp hr)
    exact hG (e r) this.1 r this.2

theorem sum_coords {M : Type} [AddCommMonoid M] (A : Nat) (g : Nat → M) :
    ∑ n ∈ Finset.range (A * 3), g n = ∑ b : Fin A, ∑ c : Fin 3, g (3 * b + c) := by
  have h : ∀ n ∈ Finset.range (A * 3), g n = ∑ b : Fin A, if n / 3 = (b : Nat) then g n else 0 := by
    intro n hn
    have hn' := Finset.mem_range.mp hn
    rw [Finset.sum_eq_single (⟨n / 3, by omega⟩ : Fin A)]
    · simp
    · intro b _ hb
      rw [if_neg]
      intro h
      exact hb (Fin.ext h.symm)
    · intro h; exact absurd (Finset.mem_univ _) h
  rw [Finset.sum_congr rfl h, Finset.sum_comm]
  exact Finset.sum_congr rfl fun b _ => sum_block A b b.isLt g

theorem p3Coupling {A : Nat} (d : Mat3) (hap : LatticeApart d) (pos : Fin A → Vec3) (N : V3 Int) (Phi : ForceConstants A) (conv : ℝ)
    (s : ℝ) (q2 q3 : Fin 3 → ℝ) (e1 e2 e3 : Nat → ℂ) :
    Spec.coupling (A * 3) (p3Vectors d pos N).length (p3Vectors d pos N).length (fun r i => (p3Vectors d pos N).getD r (fun _ => 0) i)
      (fun r i => (p3Vectors d pos N).getD r (fun _ => 0) i) (p3Weights d pos N)
      (fun r a b => p3Weights d pos N r a b * p3Weights d pos N r a b) (p3Tensor (allEntries d pos N Phi conv)) s q2 q3 e1 e2 e3 =
    weightedCoupling N (latVec d) (fun n b b' => p3Weight d pos N (latVec d n) b b')
      (fun n b b' => p3Weight d pos N (latVec d n) b b' * p3Weight d pos N (latVec d n) b b') conv Phi s q2 q3 e1 e2 e3 := by
  classical
  have wz (n : V3 Int) (hn : n ∈ p3Box N) (hnv : latVec d n ∉ p3Vectors d pos N) (b b' : Fin A) : p3Weight d pos N (latVec d n) b b' = 0 := by
    by_contra hne
    have := lt_of_le_of_ne (p3Weight_nonneg d pos N (latVec d n) b b') (Ne.symm hne)
    exact hnv ((mem_p3Vectors d pos N _).mpr ⟨n, hn, rfl, b, b', this⟩)
  unfold Spec.coupling weightedCoupling
  rw [sum_coords]
  refine Finset.sum_congr rfl fun b1 _ => Finset.sum_congr rfl fun i _ => ?_
  rw [sum_coords]
  refine Finset.sum_congr rfl fun b2 _ => Finset.sum_congr rfl fun j _ => ?_
  rw [sum_coords]
  refine Finset.sum_congr rfl fun b3 _ => Finset.sum_congr rfl fun k _ => ?_
  congr 1
  refine sum_vectors d hap pos N _ (fun n => ∑ m ∈ cellBox N,
      ((p3Weight d pos N (latVec d n) b1 b2 * (p3Weight d pos N (latVec d ⟨m.1, m.2.1, m.2.2⟩) b1 b3 * p3Weight d pos N (latVec d ⟨m.1, m.2.1, m.2.2⟩) b1 b3) *
        (Phi b1 b2 n b3 ⟨m.1, m.2.1, m.2.2⟩ i j k * conv) : ℝ) : ℂ) *
      Complex.exp (Complex.I * ((s * scal q2 (latVec d n) - scal q3 (latVec d ⟨m.1, m.2.1, m.2.2⟩) : ℝ) : ℂ))) ?_ ?_
  · intro n hn r2 hr2
    refine sum_vectors d hap pos N _ (fun m => 
      ((p3Weight d pos N (latVec d n) b1 b2 * (p3Weight d pos N (latVec d m) b1 b3 * p3Weight d pos N (latVec d m) b1 b3) *
        (Phi b1 b2 n b3 m i j k * conv) : ℝ) : ℂ) *
      Complex.exp (Complex.I * ((s * scal q2 (latVec d n) - scal q3 (latVec d m) : ℝ) : ℂ))) ?_ ?_
    · intro m hm r3 hr3
      simp only
      rw [p3Weights_val d pos N r2 _ hr2, p3Weights_val d pos N r3 _ hr3, p3Tensor_val d hap pos N Phi conv n m hn hm r2 r3 hr2 hr3,
        List.getD_eq_getElem?_getD, List.getD_eq_getElem?_getD, hr2, hr3]
      simp only [Option.getD_some]
      split_ifs with hw
      · rcases hw with hw | hw <;> simp [hw]
      · rfl
    · intro m hm hmv
      simp only [wz m hm hmv, mul_zero, zero_mul, Complex.ofReal_zero]
  · intro n hn hnv
    simp only [wz n hn hnv, zero_mul, Complex.ofReal_zero, Finset.sum_const_zero]

end Verif.Props
