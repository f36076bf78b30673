import Verif.Spec.EpaAverage
import Mathlib.Algebra.BigOperators.Fin

/-! Lemmas on averages of the coupling over energies. -/
namespace Verif.Props
open Verif.Model Verif.Spec

variable {N B M : Nat}

theorem real_finRange_sum {n : Nat} (f : Fin n → ℝ) : ((List.finRange n).map f).sum = ∑ i, f i := by
  rw [Fin.sum_univ_def]

theorem nested_sum {α : Type} (shares : List (List (List α))) (f : α → ℝ) :
    (shares.map fun files => (files.map fun star => (star.map f).sum).sum).sum = (shares.flatten.flatten.map f).sum := by
  have inner : ∀ files : List (List α), (files.map fun star => (star.map f).sum).sum = (files.flatten.map f).sum := by
    intro files
    induction files with
    | nil => simp
    | cons a l ih => simp [ih]
  simp only [inner]
  induction shares with
  | nil => simp
  | cons a l ih =>
    simp only [List.map_cons, List.sum_cons, List.flatten_cons, List.flatten_append, List.map_append, List.sum_append, ih]

theorem foldl_last {α β : Type} [DecidableEq β] (l : List α) (hl : l.Nodup) (key : α → β) (hk : Function.Injective key)
    (g : α → ℂ) (x : α) (hx : x ∈ l) (init : ℂ) :
    l.foldl (fun acc y => if key y = key x then g y else acc) init = g x := by
  have stay : ∀ (l : List α), x ∉ l → ∀ v : ℂ, l.foldl (fun acc y => if key y = key x then g y else acc) v = v := by
    intro l
    induction l with
    | nil => intro _ v; rfl
    | cons a l ih =>
      intro hx v
      rw [List.foldl_cons, if_neg, ih fun h => hx (List.mem_cons_of_mem _ h)]
      intro h
      exact hx (by rw [hk h]; exact List.mem_cons_self)
  induction l generalizing init with
  | nil => cases hx
  | cons a l ih =>
    rw [List.foldl_cons]
    rw [List.nodup_cons] at hl
    rcases List.mem_cons.mp hx with rfl | h
    · rw [if_pos rfl, stay l hl.1]
    · exact ih hl.2 h _

theorem epaGStar_val (order : Equiv.Perm (Fin N)) (s : EpaQPoint N B M) (ib1 ib2 : Fin B) (nu : Fin M) (ikOld : Fin N) :
    epaGStar order s ib1 ib2 nu (order ikOld) = s.g ikOld ib1 ib2 nu :=
  foldl_last (List.finRange N) (List.nodup_finRange N) order order.injective (fun ik => s.g ik ib1 ib2 nu) ikOld
    (List.mem_finRange ikOld) 0

theorem energies_symm {order : Equiv.Perm (Fin N)} {energies : Fin B → Fin N → ℝ}
    (h : ∀ ib ik, energies ib (order ik) = energies ib ik) (ib : Fin B) (ik : Fin N) :
    energies ib (order.symm ik) = energies ib ik := by
  rw [← h, Equiv.apply_symm_apply]

theorem epaNorm_val (order : Equiv.Perm (Fin N)) (energies : Fin B → Fin N → ℝ)
    (h : ∀ ib ik, energies ib (order ik) = energies ib ik) (smearing ei ej : ℝ) (s : EpaQPoint N B M) :
    epaNorm energies smearing ei ej s = ∑ ik, ∑ ib2, ∑ ib1, transitionWeight order energies smearing ei ej s ik ib2 ib1 := by
  unfold epaNorm
  simp only [real_finRange_sum]
  rw [← Equiv.sum_comp order]
  refine Finset.sum_congr rfl fun ik _ => Finset.sum_congr rfl fun ib2 _ => Finset.sum_congr rfl fun ib1 _ => ?_
  unfold transitionWeight epaGaussian binWeight
  rw [h, energies_symm h]

theorem epaCouplingSum_val (order : Equiv.Perm (Fin N)) (energies : Fin B → Fin N → ℝ)
    (h : ∀ ib ik, energies ib (order ik) = energies ib ik) (smearing cutoff ei ej : ℝ) (nu : Fin M) (s : EpaQPoint N B M) :
    epaCouplingSum order energies smearing cutoff ei ej nu s = ∑ ik, ∑ ib2, ∑ ib1, transportCoupling cutoff s ik ib2 ib1 nu *
      transitionWeight order energies smearing ei ej s ik ib2 ib1 := by
  unfold epaCouplingSum
  simp only [real_finRange_sum]
  rw [← Equiv.sum_comp order]
  refine Finset.sum_congr rfl fun ik _ => Finset.sum_congr rfl fun ib2 _ => Finset.sum_congr rfl fun ib1 _ => ?_
  unfold transportCoupling
  split
  · rw [zero_mul]
  · unfold transitionWeight epaGaussian binWeight
    rw [h, energies_symm h, epaGStar_val]
    have : ((0.5 : ℝ)) = 1 / 2 := by norm_num
    rw [this]
    rename_i hc
    by_cases h0 : s.phEnergies nu = 0
    · rw [h0]; simp
    · field_simp

theorem epaAverage_val (order : Equiv.Perm (Fin N)) (energies : Fin B → Fin N → ℝ)
    (h : ∀ ib ik, energies ib (order ik) = energies ib ik) (smearing cutoff ei ej : ℝ)
    (shares : List (List (List (EpaQPoint N B M)))) (points : List (EpaQPoint N B M))
    (hp : shares.flatten.flatten.Perm points) (nu : Fin M) (hn : 1.0e-12 < weightSum order energies smearing ei ej points) :
    epaAverage order energies smearing cutoff shares ei ej nu = couplingMean order energies smearing cutoff ei ej points nu := by
  unfold epaAverage
  simp only [nested_sum]
  have e1 : (shares.flatten.flatten.map (epaNorm energies smearing ei ej)).sum = weightSum order energies smearing ei ej points := by
    rw [(hp.map _).sum_eq]
    unfold weightSum
    congr 1
    exact List.map_congr_left fun s _ => epaNorm_val order energies h smearing ei ej s
  have e2 : (shares.flatten.flatten.map (epaCouplingSum order energies smearing cutoff ei ej nu)).sum =
      (points.map fun s => ∑ ik, ∑ ib2, ∑ ib1, transportCoupling cutoff s ik ib2 ib1 nu *
        transitionWeight order energies smearing ei ej s ik ib2 ib1).sum := by
    rw [(hp.map _).sum_eq]
    congr 1
    exact List.map_congr_left fun s _ => epaCouplingSum_val order energies h smearing cutoff ei ej nu s
  rw [e1, e2, if_pos hn]
  rfl

/-- Bounds on the contributions of a wavevector. -/
theorem epaCouplingSum_bounds (ikMap : Fin N → Fin N) (energies : Fin B → Fin N → ℝ) (smearing cutoff ei ej G : ℝ)
    (hc : 0 ≤ cutoff) (nu : Fin M) (s : EpaQPoint N B M) (hG : 0 ≤ G)
    (hb : ∀ ik ib1 ib2, cutoff < s.phEnergies nu → Complex.normSq (s.g ik ib1 ib2 nu) / (2 * s.phEnergies nu) ≤ G) :
    0 ≤ epaCouplingSum ikMap energies smearing cutoff ei ej nu s ∧
    epaCouplingSum ikMap energies smearing cutoff ei ej nu s ≤ G * epaNorm energies smearing ei ej s := by
  have hg : ∀ ib1 ib2 ik, cutoff < s.phEnergies nu →
      Complex.normSq (epaGStar ikMap s ib1 ib2 nu ik) / (2 * s.phEnergies nu) ≤ G := by
    intro ib1 ib2 ik hlt
    unfold epaGStar
    have : ∀ (l : List (Fin N)) (v : ℂ), Complex.normSq v / (2 * s.phEnergies nu) ≤ G →
        Complex.normSq (l.foldl (fun acc ikOld => if ikMap ikOld = ik then s.g ikOld ib1 ib2 nu else acc) v) /
          (2 * s.phEnergies nu) ≤ G := by
      intro l
      induction l with
      | nil => intro v hv; exact hv
      | cons a l ih =>
        intro v hv
        rw [List.foldl_cons]
        apply ih
        split
        · exact hb a ib1 ib2 hlt
        · exact hv
    exact this _ 0 (by simpa using hG)
  unfold epaCouplingSum epaNorm
  simp only [real_finRange_sum]
  have hw : ∀ ik ib2 ib1, 0 ≤ epaGaussian energies smearing ei ib2 ik * epaGaussian energies smearing ej ib1 (s.kPlusQ ik) := by
    intro ik ib2 ib1
    exact mul_nonneg (Real.exp_pos _).le (Real.exp_pos _).le
  have e : ∀ (x w om : ℝ), x * w * 0.5 / om = x / (2 * om) * w := by
    intro x w om
    by_cases h0 : om = 0
    · rw [h0]; simp
    · field_simp; ring
  constructor
  · refine Finset.sum_nonneg fun ik _ => Finset.sum_nonneg fun ib2 _ => Finset.sum_nonneg fun ib1 _ => ?_
    split
    · exact le_refl 0
    · rename_i hlt
      rw [e]
      exact mul_nonneg (div_nonneg (Complex.normSq_nonneg _) (by linarith)) (hw ik ib2 ib1)
  · simp only [Finset.mul_sum]
    refine Finset.sum_le_sum fun ik _ => Finset.sum_le_sum fun ib2 _ => Finset.sum_le_sum fun ib1 _ => ?_
    split
    · exact mul_nonneg hG (hw ik ib2 ib1)
    · rename_i hlt
      rw [e]
      exact mul_le_mul_of_nonneg_right (hg ib1 ib2 ik (by linarith)) (hw ik ib2 ib1)

theorem list_sum_bounds {α : Type} (l : List α) (f w : α → ℝ) (G : ℝ) (h0 : ∀ x ∈ l, 0 ≤ f x) (h1 : ∀ x ∈ l, f x ≤ G * w x) :
    0 ≤ (l.map f).sum ∧ (l.map f).sum ≤ G * (l.map w).sum := by
  induction l with
  | nil => simp
  | cons a l ih =>
    have := ih (fun x hx => h0 x (List.mem_cons_of_mem _ hx)) (fun x hx => h1 x (List.mem_cons_of_mem _ hx))
    have a0 := h0 a List.mem_cons_self
    have a1 := h1 a List.mem_cons_self
    simp only [List.map_cons, List.sum_cons, mul_add]
    exact ⟨by linarith, by linarith⟩

theorem epaPhAverage_val (shares : List (List (List (EpaQPoint N B M)))) (numQ : Nat) (nu : Fin M) :
    epaPhAverage shares numQ nu = (shares.flatten.flatten.map fun s => s.phEnergies nu).sum / numQ := by
  unfold epaPhAverage
  rw [← nested_sum]
  have : ∀ (l : List (List (EpaQPoint N B M))) , (l.map fun star => (star.map fun s => s.phEnergies nu).sum / (numQ : ℝ)).sum =
      (l.map fun star => (star.map fun s => s.phEnergies nu).sum).sum / numQ := by
    intro l
    induction l with
    | nil => simp
    | cons a l ih => simp [ih, add_div]
  simp only [this]
  induction shares with
  | nil => simp
  | cons a l ih => simp [ih, add_div]

/-! ## The file -/

theorem epaReadNums_val (old : ℝ) (print : ℝ → ℝ) (xs : List ℝ) (rest : List EpaToken) :
    epaReadNums old xs.length ((xs.map fun x => .num (print x)) ++ rest) = (xs.map print, rest) := by
  induction xs with
  | nil => rfl
  | cons a l ih => simp [epaReadNums, epaReadNum, ih]

theorem epaReadRows_val (old : ℝ) (m : Nat) (print : ℝ → ℝ) (rows : List (List ℝ)) (hr : ∀ r ∈ rows, r.length = m)
    (rest : List EpaToken) :
    epaReadRows old m rows.length ((rows.flatten.map fun x => .num (print x)) ++ rest) = (rows.map fun r => r.map print, rest) := by
  induction rows with
  | nil => rfl
  | cons a l ih =>
    have ha := hr a List.mem_cons_self
    have hl := ih fun r h => hr r (List.mem_cons_of_mem _ h)
    simp only [List.length_cons, epaReadRows, List.flatten_cons, List.map_append, List.append_assoc]
    have e := epaReadNums_val old print a ((l.flatten.map fun x => .num (print x)) ++ rest)
    rw [ha] at e
    rw [e]
    simp only [hl, List.map_cons]

theorem epaReadMats_val (old : ℝ) (n m : Nat) (print : ℝ → ℝ) (mats : List (List (List ℝ)))
    (hm : ∀ a ∈ mats, a.length = n ∧ ∀ r ∈ a, r.length = m) (rest : List EpaToken) :
    epaReadMats old n m mats.length ((mats.flatten.flatten.map fun x => .num (print x)) ++ rest) =
      (mats.map fun a => a.map fun r => r.map print, rest) := by
  induction mats with
  | nil => rfl
  | cons a l ih =>
    have ha := hm a List.mem_cons_self
    have hl := ih fun r h => hm r (List.mem_cons_of_mem _ h)
    simp only [List.length_cons, epaReadMats, List.flatten_cons, List.flatten_append, List.map_append, List.append_assoc]
    have e := epaReadRows_val old m print a ha.2 ((l.flatten.flatten.map fun x => .num (print x)) ++ rest)
    rw [ha.1] at e
    rw [e]
    simp only [hl, List.map_cons]

end Verif.Props
