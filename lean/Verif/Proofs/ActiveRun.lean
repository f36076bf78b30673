import Verif.Spec.ActiveRun
import Verif.Props.ActiveStore
import Verif.Props.Window
import Verif.Props.IrrPoints

/-! Lemmas for the states kept by the builder of the active band structure. -/
namespace Verif.Proofs
open Verif.Model Verif.Spec Verif.Props

theorem listMin_le_mem (l : List ℝ) (x : ℝ) (h : x ∈ l) : listMin l ≤ x := by
  cases l with
  | nil => simp at h
  | cons a t =>
    have key : ∀ (t : List ℝ) (a : ℝ), t.foldl min a ≤ a ∧ ∀ y ∈ t, t.foldl min a ≤ y := by
      intro t
      induction t with
      | nil => intro a; simp
      | cons b t ih =>
        intro a
        obtain ⟨h1, h2⟩ := ih (min a b)
        simp only [List.foldl_cons]
        refine ⟨le_trans h1 (min_le_left _ _), ?_⟩
        intro y hy
        rcases List.mem_cons.mp hy with rfl | hy
        · exact le_trans h1 (min_le_right _ _)
        · exact h2 y hy
    rcases List.mem_cons.mp h with rfl | h
    · exact (key t x).1
    · exact (key t a).2 x h

theorem mem_le_listMax (l : List ℝ) (x : ℝ) (h : x ∈ l) : x ≤ listMax l := by
  cases l with
  | nil => simp at h
  | cons a t =>
    have key : ∀ (t : List ℝ) (a : ℝ), a ≤ t.foldl max a ∧ ∀ y ∈ t, y ≤ t.foldl max a := by
      intro t
      induction t with
      | nil => intro a; simp
      | cons b t ih =>
        intro a
        obtain ⟨h1, h2⟩ := ih (max a b)
        simp only [List.foldl_cons]
        refine ⟨le_trans (le_max_left _ _) h1, ?_⟩
        intro y hy
        rcases List.mem_cons.mp hy with rfl | hy
        · exact le_trans (le_max_right _ _) h1
        · exact h2 y hy
    rcases List.mem_cons.mp h with rfl | h
    · exact (key t x).1
    · exact (key t a).2 x h

theorem listMin_mem (l : List ℝ) (h : l ≠ []) : listMin l ∈ l := by
  cases l with
  | nil => exact absurd rfl h
  | cons a t =>
    have key : ∀ (t : List ℝ) (a : ℝ), t.foldl min a ∈ a :: t := by
      intro t
      induction t with
      | nil => intro a; simp
      | cons b t ih =>
        intro a
        have := ih (min a b)
        simp only [List.foldl_cons]
        rcases List.mem_cons.mp this with h' | h'
        · rw [h']; rcases min_choice a b with g | g <;> rw [g] <;> simp
        · simp [h']
    exact key t a

theorem listMax_mem (l : List ℝ) (h : l ≠ []) : listMax l ∈ l := by
  cases l with
  | nil => exact absurd rfl h
  | cons a t =>
    have key : ∀ (t : List ℝ) (a : ℝ), t.foldl max a ∈ a :: t := by
      intro t
      induction t with
      | nil => intro a; simp
      | cons b t ih =>
        intro a
        have := ih (max a b)
        simp only [List.foldl_cons]
        rcases List.mem_cons.mp this with h' | h'
        · rw [h']; rcases max_choice a b with g | g <;> rw [g] <;> simp
        · simp [h']
    exact key t a

theorem extrema_le (l : List Nat) (h : l.Pairwise (· < ·)) (a b : Nat) (he : bandExtrema l = [a, b]) : a ≤ b := by
  match l with
  | [] => simp [bandExtrema] at he
  | y :: ys =>
    simp only [bandExtrema, List.cons.injEq, and_true] at he
    obtain ⟨rfl, rfl⟩ := he
    rcases List.mem_cons.mp (List.getLast_mem (l := y :: ys) (by simp)) with h' | h'
    · exact le_of_eq h'.symm
    · exact le_of_lt ((List.pairwise_cons.mp h).1 _ h')

theorem select_le (W : ReadyWindow) (es : List ℝ) (p : Nat × Nat) (h : W.select es = some p) : p.1 ≤ p.2 := by
  unfold ReadyWindow.select at h
  split at h
  · rename_i x y first last heq
    injection h with h
    subst h
    unfold windowApply at heq
    split at heq
    · simp only [internalPopWindow, Prod.mk.injEq] at heq
      exact extrema_le _ (selectLoop_spec _ _ _).1 _ _ heq.2
    · simp only [internalEnWindow, Prod.mk.injEq] at heq
      exact extrema_le _ (selectLoop_spec _ _ _).1 _ _ heq.2
    · simp only [Prod.mk.injEq, List.cons.injEq, and_true] at heq
      rw [← heq.2.1]; exact Nat.zero_le _
  · cases h

theorem mem_select (W : ReadyWindow) (es : List ℝ) (b : Nat) :
    b ∈ keptBands (windowApply W.statistics W.method W.temperatureMax W.muMin W.muMax es) ↔
      ∃ p, W.select es = some p ∧ p.1 ≤ b ∧ b ≤ p.2 := by
  have hle := select_le W es
  unfold ReadyWindow.select at hle ⊢
  generalize windowApply W.statistics W.method W.temperatureMax W.muMin W.muMax es = r at *
  match r with
  | ([], l) => simp [keptBands]
  | (_ :: _, [first, last]) =>
    have := hle _ rfl
    simp only [keptBands, List.mem_range'_1, Option.some.injEq, exists_eq_left'] at this ⊢
    omega
  | (_ :: _, []) => simp [keptBands]
  | (_ :: _, [_]) => simp [keptBands]
  | (_ :: _, _ :: _ :: _ :: _) => simp [keptBands]

theorem factor_eq (s : Statistics) (e T mu : ℝ) (hT : 0 < T) (hne : s = .bose → e ≠ mu) :
    getPopPopPm1 s e T mu = occupationFactor s e T mu := by
  cases s with
  | fermi =>
    rw [popPopPm1_fermi]
    simp only [occupationFactor]
    have := Real.exp_pos ((e - mu) / T)
    have : Real.exp ((e - mu) / T) + 1 ≠ 0 := by linarith
    field_simp
    ring
  | bose =>
    rw [popPopPm1_bose]
    simp only [occupationFactor]
    have h0 : (e - mu) / T ≠ 0 := div_ne_zero (sub_ne_zero.mpr (hne rfl)) hT.ne'
    have : Real.exp ((e - mu) / T) - 1 ≠ 0 := by
      intro h
      exact h0 (Real.exp_eq_one_iff _ |>.mp (by linarith))
    field_simp
    ring

/-- A state wanted in some calculation is between the bands selected. -/
theorem wanted_selected (w : WindowInput) (W : ReadyWindow) (T mu e : ℝ)
    (hw : windowCtor w.windowType w.populationLimit w.energyLimit W.muMin W.muMax = .ok W.method)
    (hT : 0 < T) (hTm : T ≤ W.temperatureMax) (hmu : W.muMin ≤ mu ∧ mu ≤ W.muMax) (es : List ℝ) (b : Nat)
    (he : es[b]? = some e) (hne : W.statistics = .bose → e ≠ mu ∧ e ≠ W.muMin ∧ e ≠ W.muMax)
    (hout : w.windowType = "population" → mu = W.muMin ∨ mu = W.muMax ∨ e < W.muMin ∨ W.muMax < e)
    (h : Wanted W.statistics w T mu e) : ∃ p, W.select es = some p ∧ p.1 ≤ b ∧ b ≤ p.2 := by
  rw [← mem_select]
  cases h with
  | energy a c ht hl h1 h2 =>
    rw [ht] at hw
    obtain ⟨a', c', hl', hm, _⟩ := C31_ctor _ _ _ _ _ hw
    rw [hl] at hl'
    cases hl'
    rw [hm]
    simp only [windowApply, internalEnWindow]
    exact keptBands_superset _ es b e he (by simp [h1, h2])
  | centered a c ht hl h1 h2 =>
    rw [ht, hl] at hw
    exact C77_covers _ _ a c _ _ _ mu hmu _ hw es b e he h1 h2
  | population ht hp =>
    rw [ht] at hw
    have hm : W.method = .population (w.populationLimit.getD 1e-10) := by
      unfold windowCtor at hw
      rw [if_pos rfl] at hw
      injection hw with hw
      exact hw.symm
    rw [hm]
    by_contra hcon
    obtain ⟨k1, k2⟩ := kept_of_above _ _ _ _ _ es b e he hcon
    rw [← factor_eq _ _ _ _ hT (fun hs => (hne hs).1)] at hp
    have n1 : W.statistics = .bose → e ≠ W.muMin := fun hs => (hne hs).2.1
    have n2 : W.statistics = .bose → e ≠ W.muMax := fun hs => (hne hs).2.2
    have : getPopPopPm1 W.statistics e T mu ≤ w.populationLimit.getD 1e-10 := by
      rcases hout ht with h | h | h | h
      · rw [h]; exact le_trans (popPopPm1_anti _ hT hTm n1 le_rfl) k1
      · rw [h]; exact le_trans (popPopPm1_anti _ hT hTm n2 le_rfl) k2
      · refine le_trans (popPopPm1_anti _ hT hTm n1 ?_) k1
        rw [abs_of_neg (by linarith), abs_of_neg (by linarith [hmu.1])]; linarith [hmu.1]
      · refine le_trans (popPopPm1_anti _ hT hTm n2 ?_) k2
        rw [abs_of_pos (by linarith), abs_of_pos (by linarith [hmu.2])]; linarith [hmu.2]
    exact absurd hp (not_lt.mpr this)
  | all ht =>
    rw [ht] at hw
    have hm : W.method = .nothing := by
      unfold windowCtor at hw
      rw [if_neg (by decide), if_neg (by decide), if_neg (by decide), if_pos rfl] at hw
      injection hw with hw
      exact hw.symm
    rw [hm]
    obtain ⟨hlt, _⟩ := List.getElem?_eq_some_iff.mp he
    cases es with
    | nil => simp at hlt
    | cons x xs =>
      show b ∈ keptBands ((List.range (xs.length + 1)).map (fun ib : Nat => (ib : ℝ)), [0, xs.length + 1 - 1])
      rw [List.range_succ_eq_map, List.map_cons]
      simp only [keptBands, List.mem_range'_1, List.length_cons] at hlt ⊢
      omega

/-- Points related by a symmetry have the same irreducible point. -/
theorem equiv_same {nProc rank n : Nat} {coords : Nat → V3 Rat} {lookup : V3 Rat → Outcome Int}
    {rots : List M3} (h : IrrSetup nProc rank n coords lookup rots) (irr : IrrPoints)
    (hirr : setIrreduciblePoints nProc rank n coords lookup rots none [] = .ok irr) (i j : Nat) (hi : i < n) (hj : j < n)
    (hij : SymRelated rots coords i j) : irr.equiv i = irr.equiv j := by
  obtain ⟨s, new, h1, hinv, _⟩ := setIrr_spec h.group h.look h.rank_lt h.fit none []
  rw [hirr] at h1
  injection h1 with h1
  subst h1
  obtain ⟨s, h1, _, _, _, _, h6⟩ := C18_stars h none
  rw [hirr] at h1
  injection h1 with h1
  subst h1
  have key : ∀ j, j < n → irr.equiv j ≤ j ∧ SymRelated rots coords (irr.equiv j) j := by
    intro j hj
    obtain ⟨_, hle, kr, R, _, hR, he⟩ := h6 j hj
    exact ⟨hle, R, List.mem_of_getElem? hR, he⟩
  have hle : ∀ i j, i < n → j < n → SymRelated rots coords i j → irr.equiv j ≤ irr.equiv i := by
    intro i j hi hj hij
    exact hinv.least j hj _ (by have := (key i hi).1; omega) (symRel_trans h.group (key i hi).2 hij)
  exact le_antisymm (hle j i hj hi (symRel_symm h.group hij)) (hle i j hi hj hij)

/-- The lists of the active band structure and the selection at the points. -/
theorem serial_index (n : Nat) (sel : Nat → Option (Nat × Nat)) (f : List Nat × List Nat × List Nat)
    (hf : let serial := (List.range n).filterMap fun ik => (sel ik).map fun b => (ik, b)
      f = (serial.map (·.1), serial.map (·.2.1), serial.map (·.2.2))) :
    (∀ ik p, ik < n → sel ik = some p → ∃ ia, ia < f.1.length ∧ f.1[ia]? = some ik ∧ f.2.1.getD ia 0 = p.1 ∧
      f.2.2.getD ia 0 = p.2) ∧
    ∀ (ia ik : Nat), f.1[ia]? = some ik → ia < f.1.length ∧ ik < n ∧
      sel ik = some (f.2.1.getD ia 0, f.2.2.getD ia 0) := by
  simp only at hf
  generalize hS : ((List.range n).filterMap fun ik => (sel ik).map fun b => (ik, b)) = S at hf
  subst hf
  have hmem : ∀ x, x ∈ S ↔ x.1 < n ∧ sel x.1 = some x.2 := by
    intro x
    rw [← hS, List.mem_filterMap]
    constructor
    · rintro ⟨q, hq, h⟩
      rw [Option.map_eq_some_iff] at h
      obtain ⟨b, hb, rfl⟩ := h
      exact ⟨List.mem_range.mp hq, hb⟩
    · rintro ⟨h1, h2⟩
      exact ⟨x.1, List.mem_range.mpr h1, by rw [h2]; rfl⟩
  constructor
  · intro ik p hik hp
    have : (ik, p) ∈ S := (hmem _).mpr ⟨hik, hp⟩
    obtain ⟨ia, hia, hx⟩ := List.getElem_of_mem this
    refine ⟨ia, by simpa using hia, ?_, ?_, ?_⟩ <;>
      simp [List.getD_eq_getElem?_getD, List.getElem?_eq_getElem hia, hx]
  · intro ia ik h
    simp only [List.getElem?_map, Option.map_eq_some_iff] at h
    obtain ⟨x, hx, rfl⟩ := h
    obtain ⟨hia, hx'⟩ := List.getElem?_eq_some_iff.mp hx
    have := (hmem x).mp (by rw [← hx']; exact List.getElem_mem hia)
    refine ⟨by simpa using hia, this.1, ?_⟩
    rw [this.2]
    simp [List.getD_eq_getElem?_getD, hx]

end Verif.Proofs
