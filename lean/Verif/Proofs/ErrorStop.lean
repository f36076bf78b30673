import Verif.Spec.ErrorStop
import Mathlib.Data.List.Basic

/-! # Lemmas on processes that end together -/
namespace Verif.Proofs
open Verif.Model Verif.Spec

/-- Common collectives are passed together. -/
theorem together_prefix (c p : List MpiAct) (ps : List (List MpiAct)) (hc : OnlyCollectives c) :
    together (c ++ p) (ps.map (c ++ ·)) = together p ps := by
  induction c with
  | nil => simp
  | cons a c ih =>
    obtain ⟨name, rfl⟩ := hc a (by simp)
    have ih := ih fun b hb => hc b (by simp [hb])
    simp only [List.cons_append, together]
    rw [if_pos, List.map_map]
    · exact ih
    · simp

theorem together_stop (n : Nat) (code : Int) :
    together [.stop code] (List.replicate n [.stop code]) = .finished (List.replicate (n + 1) code) := by
  simp only [together]
  rw [if_pos]
  · congr 1
    induction n with
    | zero => rfl
    | succ n ih =>
      simp only [List.replicate_succ, List.filterMap_cons, stopCode] at ih ⊢
      rw [ih]
  · simp [stopCode]

/-- All processes with the same program end together. -/
theorem runProcesses_same (n : Nat) (program : Nat → List MpiAct) (c : List MpiAct) (code : Int) (hn : 0 < n)
    (hc : OnlyCollectives c) (h : ∀ r, r < n → program r = c ++ [.stop code]) :
    AllStop n code (runProcesses n program) := by
  obtain ⟨m, rfl⟩ : ∃ m, n = m + 1 := ⟨n - 1, by omega⟩
  have hm : (List.range (m + 1)).map program = (c ++ [.stop code]) :: (List.replicate m [.stop code]).map (c ++ ·) := by
    rw [List.map_replicate, ← List.replicate_succ]
    apply List.ext_getElem <;> simp
    intro r hr; exact h r (by omega)
  unfold AllStop runProcesses
  rw [hm]
  simp only
  rw [together_prefix _ _ _ hc, together_stop]

/-- After common collectives, a process that calls another collective than the first one, or that ends, blocks all. -/
theorem runProcesses_stuck (n : Nat) (program : Nat → List MpiAct) (c : List MpiAct) (tail : Nat → List MpiAct) (name : String)
    (q : List MpiAct) (r : Nat) (hn : 0 < n) (hr : r < n) (hc : OnlyCollectives c)
    (h : ∀ r, r < n → program r = c ++ tail r) (h0 : tail 0 = .collective name :: q)
    (h1 : (tail r).head? ≠ some (.collective name)) : runProcesses n program = .stuck := by
  obtain ⟨m, rfl⟩ : ∃ m, n = m + 1 := ⟨n - 1, by omega⟩
  have hr0 : r ≠ 0 := by rintro rfl; rw [h0] at h1; exact h1 rfl
  have hm : (List.range (m + 1)).map program =
      (c ++ tail 0) :: ((List.range m).map fun i => tail (i + 1)).map (c ++ ·) := by
    rw [List.range_succ_eq_map, List.map_cons, h 0 (by omega), List.map_map, List.map_map]
    congr 1
    apply List.map_congr_left
    intro i hi
    exact h (i + 1) (by have := List.mem_range.mp hi; omega)
  unfold runProcesses
  rw [hm]
  simp only
  rw [together_prefix _ _ _ hc, h0]
  simp only [together]
  rw [if_neg]
  rw [List.all_eq_true]
  intro hall
  have := hall (tail r) (by
    rw [List.mem_map]
    exact ⟨r - 1, List.mem_range.mpr (by omega), by congr 1; omega⟩)
  rw [beq_iff_eq] at this
  exact h1 this

/-- A process that ends with another code keeps all from ending with one code. -/
theorem allStop_getElem (p : List MpiAct) (ps : List (List MpiAct)) (code : Int) (n : Nat)
    (h : AllStop n code (together p ps)) : ∀ q ∈ p :: ps, MpiAct.stop code ∈ q := by
  induction p generalizing ps with
  | nil => simp [AllStop, together] at h
  | cons a p ih =>
    unfold AllStop at h
    cases a with
    | stop c =>
      simp only [together] at h
      split at h
      · rename_i hall
        rw [List.all_eq_true] at hall
        injection h with h
        have hc : ∀ x ∈ c :: ps.filterMap stopCode, x = code := fun x hx => by
          rw [h] at hx; exact List.eq_of_mem_replicate hx
        intro q hq
        rcases List.mem_cons.mp hq with rfl | hq
        · rw [hc c (by simp)]; simp
        · have h1 := hall q hq
          obtain ⟨x, hx⟩ := Option.isSome_iff_exists.mp h1
          have := hc x (List.mem_cons_of_mem _ (List.mem_filterMap.mpr ⟨q, hq, hx⟩))
          subst this
          match q, hx with
          | .stop y :: q, hx => simp only [stopCode, Option.some.injEq] at hx; simp [hx]
      · cases h
    | collective name =>
      simp only [together] at h
      split at h
      · have := ih _ h
        intro q hq
        rcases List.mem_cons.mp hq with rfl | hq
        · exact List.mem_cons_of_mem _ (this p (by simp))
        · exact List.mem_of_mem_tail (this q.tail (List.mem_cons_of_mem _ (List.mem_map.mpr ⟨q, hq, rfl⟩)))
      · cases h

theorem runProcesses_allStop (n : Nat) (program : Nat → List MpiAct) (code : Int) (h : AllStop n code (runProcesses n program)) :
    ∀ r, r < n → MpiAct.stop code ∈ program r := by
  intro r hr
  obtain ⟨m, rfl⟩ : ∃ m, n = m + 1 := ⟨n - 1, by omega⟩
  unfold runProcesses at h
  rw [List.range_succ_eq_map, List.map_cons] at h
  have := allStop_getElem _ _ _ _ h (program r) (by
    rw [← List.map_cons, ← List.range_succ_eq_map]
    exact List.mem_map.mpr ⟨r, List.mem_range.mpr hr, rfl⟩)
  exact this

theorem bisectionLoop_same (exits : Nat → Bool) (rest : List MpiAct) : ∀ (left iter k : Nat),
    k + 1 < left → (∀ i, i < k → exits (iter + i) = false) → exits (iter + k) = true → ∀ rank,
    bisectionLoop exits rest rank left iter = List.replicate (k + 1) (.collective "allReduceSum") ++ rest := by
  intro left
  induction left with
  | zero => intro iter k h; omega
  | succ left ih =>
    intro iter k hk h0 h1 rank
    rw [bisectionLoop, if_neg (by omega)]
    cases k with
    | zero => rw [if_pos (by simpa using h1)]; rfl
    | succ k =>
      rw [if_neg (by rw [show iter = iter + 0 from rfl, h0 0 (by omega)]; simp)]
      rw [ih (iter + 1) k (by omega) (fun i hi => by
          have := h0 (i + 1) (by omega); rwa [show iter + 1 + i = iter + (i + 1) by omega])
        (by rwa [show iter + 1 + k = iter + (k + 1) by omega])]
      rfl

theorem bisectionLoop_last (exits : Nat → Bool) (rest : List MpiAct) : ∀ (left iter : Nat),
    (∀ i, i < left → exits (iter + i) = false) → ∀ rank,
    bisectionLoop exits rest rank (left + 1) iter = List.replicate left (.collective "allReduceSum") ++
      (if rank = 0 then errorActs else
        .collective "allReduceSum" :: rest) := by
  intro left
  induction left with
  | zero =>
    intro iter h rank
    rw [bisectionLoop]
    by_cases hr : rank = 0
    · simp [hr]
    · simp [hr, bisectionLoop]
  | succ left ih =>
    intro iter h rank
    rw [bisectionLoop, if_neg (by omega), if_neg (by rw [show iter = iter + 0 from rfl, h 0 (by omega)]; simp)]
    rw [ih (iter + 1) (fun i hi => by
      have := h (i + 1) (by omega); rwa [show iter + 1 + i = iter + (i + 1) by omega])]
    rfl

theorem onlyCollectives_append {a b : List MpiAct} (ha : OnlyCollectives a) (hb : OnlyCollectives b) :
    OnlyCollectives (a ++ b) := fun x hx => (List.mem_append.mp hx).elim (ha x) (hb x)

theorem onlyCollectives_replicate (n : Nat) (name : String) : OnlyCollectives (List.replicate n (.collective name)) :=
  fun x hx => ⟨name, List.eq_of_mem_replicate hx⟩

theorem onlyCollectives_nil : OnlyCollectives [] := fun _ h => by cases h

theorem onlyCollectives_cons (name : String) {a : List MpiAct} (ha : OnlyCollectives a) :
    OnlyCollectives (.collective name :: a) := fun x hx => (List.mem_cons.mp hx).elim (fun h => ⟨name, h⟩) (ha x)

end Verif.Proofs
