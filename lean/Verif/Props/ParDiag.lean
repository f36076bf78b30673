import Verif.Spec.ParDiag
import Verif.Proofs.Atoms
import Verif.Proofs.IrrPoints
import Mathlib.Tactic.Linarith
import Mathlib.Tactic.NormNum
import Mathlib.Tactic.Ring
import Mathlib.Algebra.BigOperators.Ring.Finset

/-! # C187: diagonalization of distributed matrices -/
namespace Verif.Props
open Verif.Model Verif.Spec

theorem firstValues_ok (l : List ℝ) (k : Nat) (h : k ≤ l.length) : firstValues l k = .ok (l.take k) := by
  unfold firstValues
  rw [mapOutcome_ok (List.range k) (g := fun i => l.getD i 0)]
  · congr 1
    apply List.ext_getElem
    · simp [h]
    · intro i h1 h2
      simp at h1 h2
      simp [List.getElem?_eq_getElem (show i < l.length by omega)]
  · intro i hi
    rw [List.mem_range] at hi
    unfold readAt
    rw [List.getElem?_eq_getElem (by omega)]
    simp [List.getElem?_eq_getElem (show i < l.length by omega)]

theorem mem_nonPositives (l : List ℝ) (h : l.Pairwise (· ≤ ·)) (s : Nat) (p : Nat × ℝ) :
    p ∈ nonPositives s l ↔ ∃ i, i < l.length ∧ p = (s + i, l.getD i 0) ∧ l.getD i 0 ≤ 0 := by
  induction l generalizing s with
  | nil => simp [nonPositives]
  | cons e l ih =>
    rw [List.pairwise_cons] at h
    unfold nonPositives
    split
    · rename_i he
      rw [List.mem_cons, ih h.2]
      constructor
      · rintro (rfl | ⟨i, hi, rfl, hle⟩)
        · exact ⟨0, by simp, by simp, by simpa using he⟩
        · exact ⟨i + 1, by simp; omega, by simp; omega, by simpa using hle⟩
      · rintro ⟨i, hi, rfl, hle⟩
        rcases i with _ | i
        · left; simp
        · right; exact ⟨i, by simp at hi; omega, by simp; omega, by simpa using hle⟩
    · rename_i he
      simp only [List.not_mem_nil, false_iff]
      rintro ⟨i, hi, rfl, hle⟩
      rcases i with _ | i
      · exact he (by simpa using hle)
      · have hi : i < l.length := by simp at hi; omega
        have := h.1 _ (List.getElem_mem hi)
        simp [List.getElem?_eq_getElem hi] at hle
        linarith

theorem spectrum_congr {α : Type} [Semiring α] [StarRing α] {ofReal : ℝ → α} {n : Nat} {f g : Nat → Nat → α} {e : List ℝ}
    {v : Nat → Nat → α} (h : IsSpectrum ofReal n f e v) (hfg : ∀ i j, i < n → j < n → f i j = g i j) :
    IsSpectrum ofReal n g e v := by
  refine ⟨h.1, h.2.1, ?_, h.2.2.2⟩
  intro i j hi hj
  rw [← h.2.2.1 i j hi hj]
  unfold productOf
  refine Finset.sum_congr rfl fun l hl => ?_
  rw [Finset.mem_range] at hl
  rw [hfg i l hi hl]

theorem fromUpper_hermitian {α : Type} [Star α] {n : Nat} {f : Nat → Nat → α} (h : IsHermitianOn n f) (i j : Nat)
    (hi : i < n) (hj : j < n) : fromUpper f i j = f i j := by
  unfold fromUpper
  split
  · rfl
  · exact (h i j hi hj).symm

/-- Whatever the matrix: only square matrices on square grids of processes are accepted. -/
theorem C187_refused (lib : EigLib) (a : PMat ℝ) (b : PMat ℂ) (number : Int) (check : Bool) :
    (a.numRows ≠ a.numCols ∨ a.numBlasRows ≠ a.numBlasCols →
      a.diagonalizeAll lib = .error ∧ a.diagonalizeSome lib number check = .error) ∧
    (b.numRows ≠ b.numCols ∨ b.numBlasRows ≠ b.numBlasCols → b.diagonalizeComplex lib = .error) := by
  constructor
  · rintro (h | h)
    · exact ⟨by unfold PMat.diagonalizeAll; rw [if_pos h], by unfold PMat.diagonalizeSome; rw [if_pos h]⟩
    · constructor
      · unfold PMat.diagonalizeAll
        split
        · rfl
        · rfl
      · unfold PMat.diagonalizeSome
        split
        · rfl
        · rfl
  · rintro (h | h)
    · unfold PMat.diagonalizeComplex; rw [if_pos h]
    · unfold PMat.diagonalizeComplex
      split
      · rfl
      · rfl

theorem workLength_ok {x : ℝ} (h0 : 0 ≤ x) (h1 : x < 2 ^ 31) : workLength x = .ok ⌊x⌋ := by
  have ha : 0 ≤ ⌊x⌋ := Int.floor_nonneg.2 h0
  have hb : ⌊x⌋ < 2 ^ 31 := by
    rw [Int.floor_lt]; push_cast; norm_num at h1 ⊢; exact h1
  unfold workLength
  rw [i32_ok (by unfold intMin; omega) (by unfold intMax; omega), Outcome.bind_eq, Outcome.bind_ok, if_neg (by omega)]

/-- Real symmetric matrices, all eigenvalues: what is returned is the whole spectrum in ascending order with orthonormal
eigenvectors, and if there is a negative eigenvalue the warning lists exactly the eigenvalues that are not positive.  It is
returned whenever the lengths of the workspaces are `int`s and ScaLAPACK succeeds. -/
theorem C187_all_partial (lib : EigLib) (hc : EigContract lib) (a : PMat ℝ) (n : Nat) (hn : 0 < n)
    (hr : a.numRows = n) (hcol : a.numCols = n) (hg : a.numBlasRows = a.numBlasCols) (hs : IsHermitianOn n a.entry) :
    (∀ d, a.diagonalizeAll lib = .ok d → IsSpectrum (fun x => x) n a.entry d.values d.vectors ∧
      ∀ p, p ∈ d.reported ↔ (∃ x ∈ d.values, x < 0) ∧ ∃ i, i < n ∧ p = (i, d.values.getD i 0) ∧ d.values.getD i 0 ≤ 0) ∧
    (7 * n + 8 * a.numBlasCols + 2 < 2 ^ 31 → 0 ≤ lib.workAll n a.numBlasRows → lib.workAll n a.numBlasRows < 2 ^ 31 →
      (lib.syevd n a.entry).info = 0 → ∃ d, a.diagonalizeAll lib = .ok d) := by
  have key : (lib.syevd n a.entry).info = 0 →
      IsSpectrum (fun x => x) n a.entry (lib.syevd n a.entry).values (lib.syevd n a.entry).vectors := fun h =>
    spectrum_congr (hc.all n a.entry h) fun i j hi hj => fromUpper_hermitian hs i j hi hj
  have hdef : a.diagonalizeAll lib = (liworkAll n a.numBlasCols).bind fun _ =>
      (workLength (lib.workAll n a.numBlasRows)).bind fun _ =>
      if (lib.syevd n a.entry).info ≠ 0 then .error
      else (readAt (lib.syevd n a.entry).values 0).bind fun first => (firstValues (lib.syevd n a.entry).values n).bind
        fun values => .ok ⟨values, (lib.syevd n a.entry).vectors, if first < 0 then nonPositives 0 values else []⟩ := by
    unfold PMat.diagonalizeAll
    rw [if_neg (by rw [hr, hcol]; simp), if_neg (by rw [hg]; simp), hr]
    rfl
  have hval : (lib.syevd n a.entry).info = 0 → (readAt (lib.syevd n a.entry).values 0).bind (fun first =>
      (firstValues (lib.syevd n a.entry).values n).bind fun values =>
        .ok (⟨values, (lib.syevd n a.entry).vectors, if first < 0 then nonPositives 0 values else []⟩ : Diag ℝ)) =
      .ok ⟨(lib.syevd n a.entry).values, (lib.syevd n a.entry).vectors,
        if (lib.syevd n a.entry).values.getD 0 0 < 0 then nonPositives 0 (lib.syevd n a.entry).values else []⟩ := by
    intro h
    obtain ⟨h1, -, -⟩ := key h
    have h0 : readAt (lib.syevd n a.entry).values 0 = .ok ((lib.syevd n a.entry).values.getD 0 0) := by
      unfold readAt
      rw [List.getElem?_eq_getElem (by omega)]
      simp [List.getElem?_eq_getElem (show 0 < (lib.syevd n a.entry).values.length by omega)]
    rw [h0, firstValues_ok _ _ (by omega)]
    simp only [Outcome.bind_ok]
    rw [List.take_of_length_le (by omega)]
  constructor
  · intro d hd
    rw [hdef, ← Outcome.bind_eq, Outcome.bind_eq_ok_iff] at hd
    obtain ⟨_, -, hd⟩ := hd
    rw [← Outcome.bind_eq, Outcome.bind_eq_ok_iff] at hd
    obtain ⟨_, -, hd⟩ := hd
    split at hd
    · cases hd
    · rename_i hi
      have hi : (lib.syevd n a.entry).info = 0 := by simpa using hi
      rw [hval hi] at hd
      obtain rfl := Outcome.ok.inj hd
      have hsp := key hi
      refine ⟨hsp, ?_⟩
      intro p
      dsimp only
      obtain ⟨h1, h2, -⟩ := hsp
      generalize (lib.syevd n a.entry).values = e at h1 h2
      have hneg : (∃ x ∈ e, x < 0) ↔ e.getD 0 0 < 0 := by
        rcases e with _ | ⟨x, e⟩
        · simp at h1; omega
        · rw [List.pairwise_cons] at h2
          simp only [List.getD_cons_zero]
          constructor
          · rintro ⟨y, hy, hy0⟩
            rcases List.mem_cons.1 hy with rfl | hy
            · exact hy0
            · exact lt_of_le_of_lt (h2.1 y hy) hy0
          · intro h; exact ⟨x, List.mem_cons_self, h⟩
      rw [hneg]
      by_cases h : e.getD 0 0 < 0
      · rw [if_pos h, mem_nonPositives e h2, h1]
        simp only [h, true_and, Nat.zero_add]
      · rw [if_neg h]
        simp only [h, false_and, List.not_mem_nil]
  · intro hl hw0 hw hi
    have h1 : liworkAll n a.numBlasCols = .ok (7 * n + 8 * a.numBlasCols + 2 : Int) := by
      unfold liworkAll cmul cadd
      rw [i32_ok (by unfold intMin; omega) (by unfold intMax; omega), Outcome.bind_eq, Outcome.bind_ok]
      rw [i32_ok (by unfold intMin; omega) (by unfold intMax; omega), Outcome.bind_eq, Outcome.bind_ok]
      rw [i32_ok (by unfold intMin; omega) (by unfold intMax; omega), Outcome.bind_eq, Outcome.bind_ok]
      rw [i32_ok (by unfold intMin; omega) (by unfold intMax; omega)]
    have h2 : workLength (lib.workAll n a.numBlasRows) = .ok ⌊lib.workAll n a.numBlasRows⌋ := workLength_ok hw0 hw
    rw [hdef, h1, h2, Outcome.bind_ok, Outcome.bind_ok, if_neg (by simp [hi]), hval hi]
    exact ⟨_, rfl⟩

theorem some_eq (lib : EigLib) (a : PMat ℝ) (n : Nat) (hr : a.numRows = n) (hcol : a.numCols = n)
    (hg : a.numBlasRows = a.numBlasCols) (number : Int) (check : Bool) :
    a.diagonalizeSome lib number check = (workLength (lib.workSome n a.numBlasRows)).bind fun _ =>
      (liworkSome n a.numBlasRows a.numBlasCols).bind fun _ =>
      if (lib.syevr n (.index 1 (min number n)) a.entry).info ≠ 0 then .error
      else if min number n < 0 then .error
      else (firstValues (lib.syevr n (.index 1 (min number n)) a.entry).values (min number n).toNat).bind fun values =>
        .ok ⟨values, (lib.syevr n (.index 1 (min number n)) a.entry).vectors, if check then negativeCheck lib a else []⟩ := by
  have hk : (if (n : Int) < number then (n : Int) else number) = min number n := by
    split <;> omega
  unfold PMat.diagonalizeSome
  rw [if_neg (by rw [hr, hcol]; simp), if_neg (by rw [hg]; simp), hr]
  simp only [hk]
  rfl

/-- Real symmetric matrices, some eigenvalues: what is returned are the lowest `number` eigenvalues (all of them, if the matrix
has fewer), in ascending order, with their eigenvectors in the first columns.  A number below one is refused.  The check for
negative eigenvalues does not change the result; its warning lists the eigenvalues above `-1` and not above `1e-16`, if there
are more than three. -/
theorem C187_some_partial (lib : EigLib) (hc : EigContract lib) (a : PMat ℝ) (n : Nat)
    (hr : a.numRows = n) (hcol : a.numCols = n) (hg : a.numBlasRows = a.numBlasCols) (hs : IsHermitianOn n a.entry)
    (number : Int) (check : Bool) :
    (∀ d, a.diagonalizeSome lib number check = .ok d → 1 ≤ number ∧
      (∃ e v, IsSpectrum (fun x => x) n a.entry e v ∧ d.values = e.take number.toNat ∧
        ∀ i j : Nat, i < n → j < n → (j : Int) < number → d.vectors i j = v i j) ∧
      (∀ check', ∃ d', a.diagonalizeSome lib number check' = .ok d' ∧ d'.values = d.values ∧ d'.vectors = d.vectors) ∧
      (check = false → d.reported = []) ∧
      (check = true → (lib.syevr n (.value (-1) 1e-16) a.entry).info = 0 → ∃ e v, IsSpectrum (fun x => x) n a.entry e v ∧
        d.reported.map Prod.snd = if 3 < (e.filter fun x => -1 < x ∧ x ≤ 1e-16).length
          then e.filter fun x => -1 < x ∧ x ≤ 1e-16 else [])) ∧
    (number < 1 → ∀ d, a.diagonalizeSome lib number check ≠ .ok d) := by
  have hmain : ∀ d, a.diagonalizeSome lib number check = .ok d → 1 ≤ number ∧
      (∃ e v, IsSpectrum (fun x => x) n a.entry e v ∧ d.values = e.take number.toNat ∧
        ∀ i j : Nat, i < n → j < n → (j : Int) < number → d.vectors i j = v i j) ∧
      (∀ check', ∃ d', a.diagonalizeSome lib number check' = .ok d' ∧ d'.values = d.values ∧ d'.vectors = d.vectors) ∧
      (check = false → d.reported = []) ∧
      (check = true → (lib.syevr n (.value (-1) 1e-16) a.entry).info = 0 → ∃ e v, IsSpectrum (fun x => x) n a.entry e v ∧
        d.reported.map Prod.snd = if 3 < (e.filter fun x => -1 < x ∧ x ≤ 1e-16).length
          then e.filter fun x => -1 < x ∧ x ≤ 1e-16 else []) := by
    intro d hd
    rw [some_eq lib a n hr hcol hg, ← Outcome.bind_eq, Outcome.bind_eq_ok_iff] at hd
    obtain ⟨w, hw, hd⟩ := hd
    rw [← Outcome.bind_eq, Outcome.bind_eq_ok_iff] at hd
    obtain ⟨w', hw', hd⟩ := hd
    split at hd
    · cases hd
    rename_i hi
    have hi : (lib.syevr n (.index 1 (min number n)) a.entry).info = 0 := by simpa using hi
    split at hd
    · cases hd
    rename_i hk
    rw [← Outcome.bind_eq, Outcome.bind_eq_ok_iff] at hd
    obtain ⟨values, hv, hd⟩ := hd
    obtain rfl := Outcome.ok.inj hd
    have hpos : 1 ≤ min number n := by
      by_contra hlt
      exact hc.none n a.entry _ (by omega) hi
    have hcast : min number (n : Int) = ((min number n).toNat : Int) := by omega
    have hi' := hi
    rw [hcast] at hi'
    obtain ⟨hk1, hkn, e, v, hsp, hvals, hvecs⟩ := hc.some n a.entry _ hi'
    rw [← hcast] at hvals hvecs
    have hlen : e.length = n := hsp.1
    rw [firstValues_ok _ _ (by rw [hvals, List.length_take]; omega)] at hv
    have hv := Outcome.ok.inj hv
    refine ⟨by omega, ⟨e, v, spectrum_congr hsp fun i j hi hj => fromUpper_hermitian hs i j hi hj, ?_, ?_⟩, ?_, ?_, ?_⟩
    · dsimp only
      rw [← hv, hvals, List.take_take, Nat.min_self]
      rcases le_or_gt number n with h | h
      · rw [min_eq_left h]
      · rw [min_eq_right (by omega), List.take_of_length_le (by omega), List.take_of_length_le (by omega)]
    · intro i j hi hj hjn
      exact hvecs i j hi (by omega)
    · intro check'
      refine ⟨⟨values, (lib.syevr n (.index 1 (min number n)) a.entry).vectors, if check' then negativeCheck lib a else []⟩,
        ?_, rfl, rfl⟩
      rw [some_eq lib a n hr hcol hg, hw, Outcome.bind_ok, hw', Outcome.bind_ok, if_neg (by simp [hi]), if_neg hk,
        firstValues_ok _ _ (by rw [hvals, List.length_take]; omega), Outcome.bind_ok, hv]
    · intro h; simp [h]
    · intro h hinfo
      obtain ⟨e', v', hsp', hvals'⟩ := hc.value n a.entry (-1) 1e-16 hinfo
      refine ⟨e', v', spectrum_congr hsp' fun i j hi hj => fromUpper_hermitian hs i j hi hj, ?_⟩
      simp only [h, if_true]
      unfold negativeCheck
      rw [hr]
      simp only [hvals', gt_iff_lt]
      split
      · rw [List.map_map]
        apply List.ext_getElem
        · simp
        · intro i h1 h2
          simp only [List.getElem_map, List.getElem_range, Function.comp]
          rw [List.getD_eq_getElem?_getD, List.getElem?_eq_getElem h2, Option.getD_some]
      · rfl
  refine ⟨hmain, ?_⟩
  intro h d hd
  have := (hmain d hd).1
  omega

/-- Complex Hermitian matrices: what is returned is the whole spectrum in ascending order with orthonormal eigenvectors. -/
theorem C187_complex_partial (lib : EigLib) (hc : EigContract lib) (a : PMat ℂ) (n : Nat)
    (hr : a.numRows = n) (hs : IsHermitianOn n a.entry) :
    ∀ d, a.diagonalizeComplex lib = .ok d → IsSpectrum (fun x => (x : ℂ)) n a.entry d.values d.vectors := by
  intro d hd
  unfold PMat.diagonalizeComplex at hd
  split at hd
  · cases hd
  split at hd
  · cases hd
  rw [hr, Outcome.bind_eq_ok_iff] at hd
  obtain ⟨w, -, hd⟩ := hd
  split at hd
  · cases hd
  dsimp only at hd
  split at hd
  · cases hd
  rename_i hi
  have hi : (lib.heev n a.entry).info = 0 := by simpa using hi
  rw [Outcome.bind_eq_ok_iff] at hd
  obtain ⟨values, hv, hd⟩ := hd
  obtain rfl := Outcome.ok.inj hd
  have hsp := spectrum_congr (hc.complex n a.entry hi) fun i j hi hj => fromUpper_hermitian hs i j hi hj
  rw [firstValues_ok _ _ (by rw [hsp.1])] at hv
  rw [← Outcome.ok.inj hv, List.take_of_length_le (by rw [hsp.1])]
  exact hsp

theorem i32_of_ok {x y : Int} (h : i32 x = .ok y) : x = y := by
  unfold i32 at h
  split at h
  · exact Outcome.ok.inj h
  · cases h

/-- The workspaces have the lengths ScaLAPACK asks for, whenever these are computed without overflow; for complex matrices that
is so for every size for which they are `int`s. -/
theorem C187_workspace (n nb nprow npcol p : Nat) :
    (∀ l, liworkAll n npcol = .ok l → l = minLiworkAll n npcol) ∧
    (∀ l, liworkSome n nprow npcol = .ok l → l = minLiworkSome n nprow npcol) ∧
    (∀ l, workComplex n nb p p = .ok l → l.1 = minLworkComplex n nb p ∧ (0 < n → l.2 = minLrworkComplex n)) ∧
    (0 < nb → minLworkComplex n nb p < 2 ^ 31 → 4 * n < 2 ^ 31 → ∃ l, workComplex n nb p p = .ok l) := by
  have hnn : max (max n nb) 2 = max n (max nb 2) := by omega
  refine ⟨?_, ?_, ?_, ?_⟩
  · intro l h
    unfold liworkAll cmul cadd at h
    simp only [Outcome.bind_eq_ok_iff] at h
    obtain ⟨x1, h1, x2, h2, x3, h3, h4⟩ := h
    have := i32_of_ok h1; have := i32_of_ok h2; have := i32_of_ok h3; have := i32_of_ok h4
    unfold minLiworkAll
    push_cast
    omega
  · intro l h
    unfold liworkSome cmul cadd at h
    simp only [Outcome.bind_eq_ok_iff] at h
    obtain ⟨x1, h1, x2, h2, x3, h3, x4, h4, h5⟩ := h
    have h1 := i32_of_ok h1; have := i32_of_ok h2; have := i32_of_ok h3; have := i32_of_ok h4; have := i32_of_ok h5
    unfold minLiworkSome
    have : ((nprow * npcol : Nat) : Int) = x1 := by push_cast; exact h1
    generalize nprow * npcol = q at *
    omega
  · intro l h
    unfold workComplex cmul cadd csub at h
    simp only [Outcome.bind_eq_ok_iff, hnn] at h
    obtain ⟨x1, h1, x2, h2, x3, h3, x4, h4, x5, h5, x6, h6, x7, h7, x8, h8, x9, h9, x10, h10, h11⟩ := h
    have h1 := i32_of_ok h1; have h2 := i32_of_ok h2; have h3 := i32_of_ok h3; have h4 := i32_of_ok h4
    have h5 := i32_of_ok h5; have h6 := i32_of_ok h6; have h7 := i32_of_ok h7; have h8 := i32_of_ok h8
    have h9 := i32_of_ok h9; have h10 := i32_of_ok h10
    obtain rfl := Outcome.ok.inj h11
    constructor
    · show x7 = _
      unfold minLworkComplex
      subst h1 h2 h3 h4 h5 h6 h7
      push_cast
      ring
    · intro hn
      show x10 = _
      unfold minLrworkComplex
      omega
  · intro hnb hw h4
    unfold minLworkComplex at hw
    dsimp only at hw
    unfold workComplex cmul cadd csub
    dsimp only
    rw [hnn]
    generalize numroc (max n (max nb 2)) nb 0 p = r at hw
    have e1 : (2 * r + nb) * nb = (r + r + nb) * nb := by ring
    have e2 : n ^ 2 = n * n := by ring
    rw [e1, e2] at hw
    have hb : r + r + nb ≤ (r + r + nb) * nb := Nat.le_mul_of_pos_right _ hnb
    have c1 : (((r : Int) + r + nb) * nb) = (((r + r + nb) * nb : Nat) : Int) := by push_cast; ring
    have c2 : ((n : Int) * n) = ((n * n : Nat) : Int) := by push_cast; ring
    generalize hA : (r + r + nb) * nb = A at hw hb c1
    generalize hB : n * n = B at hw c2
    simp only [Outcome.bind_eq]
    rw [i32_ok (by unfold intMin; omega) (by unfold intMax; omega), Outcome.bind_ok,
      i32_ok (by unfold intMin; omega) (by unfold intMax; omega), Outcome.bind_ok, c1,
      i32_ok (by unfold intMin; omega) (by unfold intMax; omega), Outcome.bind_ok,
      i32_ok (by unfold intMin; omega) (by unfold intMax; omega), Outcome.bind_ok,
      i32_ok (by unfold intMin; omega) (by unfold intMax; omega), Outcome.bind_ok, c2,
      i32_ok (by unfold intMin; omega) (by unfold intMax; omega), Outcome.bind_ok,
      i32_ok (by unfold intMin; omega) (by unfold intMax; omega), Outcome.bind_ok,
      i32_ok (by unfold intMin; omega) (by unfold intMax; omega), Outcome.bind_ok,
      i32_ok (by unfold intMin; omega) (by unfold intMax; omega), Outcome.bind_ok,
      i32_ok (by unfold intMin; omega) (by unfold intMax; omega), Outcome.bind_ok]
    exact ⟨_, rfl⟩

/-- Sizes.  Complex matrices with 46341 rows or more, on any grid, and real matrices for which ScaLAPACK reports a workspace of
`2 ^ 31` numbers or more: the lengths are not `int`s, and the behaviour is undefined whatever the elements are. -/
theorem C187_violated_size (lib : EigLib) :
    (∀ a : PMat ℂ, a.numRows = a.numCols → a.numBlasRows = a.numBlasCols → 46341 ≤ a.numRows →
      a.diagonalizeComplex lib = .ub) ∧
    (∀ a : PMat ℝ, a.numRows = a.numCols → a.numBlasRows = a.numBlasCols → 2 ^ 31 ≤ lib.workAll a.numRows a.numBlasRows →
      a.diagonalizeAll lib = .ub) := by
  constructor
  · intro a h1 h2 h3
    have hw : workComplex a.numRows a.blockSize a.numBlasRows a.numBlasCols = .ub := by
      have hf : cmul (a.numRows : Int) a.numRows = .ub := by
        unfold cmul i32
        rw [if_neg]
        have : (46341 : Int) * 46341 ≤ (a.numRows : Int) * a.numRows := by
          exact_mod_cast Nat.mul_le_mul h3 h3
        unfold intMax intMin
        omega
      have stub : ∀ {α β : Type} (o : Outcome α) (f : α → Outcome β), (o = .ub ∨ ∃ x, o = .ok x) →
          (∀ x, f x = .ub) → (o >>= f) = .ub := by
        intro α β o f ho hf
        rcases ho with rfl | ⟨x, rfl⟩
        · rfl
        · exact hf x
      have hi : ∀ x : Int, i32 x = .ub ∨ ∃ y, i32 x = .ok y := by
        intro x; unfold i32; split
        · exact .inr ⟨_, rfl⟩
        · exact .inl rfl
      unfold workComplex
      refine stub _ _ (hi _) fun x1 => stub _ _ (hi _) fun x2 => stub _ _ (hi _) fun x3 => stub _ _ (hi _) fun x4 =>
        stub _ _ (hi _) fun x5 => ?_
      rw [hf]; rfl
    unfold PMat.diagonalizeComplex
    rw [if_neg (by simp [h1]), if_neg (by simp [h2]), hw]
    rfl
  · intro a h1 h2 h3
    have hw : workLength (lib.workAll a.numRows a.numBlasRows) = .ub := by
      have : (2 ^ 31 : Int) ≤ ⌊lib.workAll a.numRows a.numBlasRows⌋ := by
        rw [Int.le_floor]; push_cast; norm_num at h3 ⊢; exact h3
      unfold workLength i32
      rw [if_neg (by unfold intMax intMin; omega)]
      rfl
    have hl : ∀ n p : Nat, liworkAll n p = .ub ∨ ∃ x, liworkAll n p = .ok x := by
      intro n p
      unfold liworkAll cmul cadd i32
      split
      · rw [Outcome.bind_eq, Outcome.bind_ok]
        split
        · rw [Outcome.bind_eq, Outcome.bind_ok]
          split
          · rw [Outcome.bind_eq, Outcome.bind_ok]
            split
            · exact .inr ⟨_, rfl⟩
            · exact .inl rfl
          · exact .inl rfl
        · exact .inl rfl
      · exact .inl rfl
    unfold PMat.diagonalizeAll
    rw [if_neg (by simp [h1]), if_neg (by simp [h2])]
    rcases hl a.numRows a.numBlasCols with h | ⟨x, h⟩
    · rw [h]; rfl
    · rw [h, Outcome.bind_eq, Outcome.bind_ok, hw]; rfl

/-- The matrix with diagonal `-1`, `2` and `0` elsewhere. -/
def twoLevels (i j : Nat) : ℝ := if i = j then (if i = 0 then -1 else 2) else 0

theorem twoLevels_spectrum (g : Nat → Nat → ℝ) (h : ∀ i j, i < 2 → j < 2 → i ≤ j → g i j = twoLevels i j) :
    IsSpectrum (fun x : ℝ => x) 2 (fromUpper g) [-1, 2] (fun i j => if i = j then 1 else 0) := by
  have h00 := h 0 0 (by omega) (by omega) (by omega)
  have h01 := h 0 1 (by omega) (by omega) (by omega)
  have h11 := h 1 1 (by omega) (by omega) (by omega)
  simp [twoLevels] at h00 h01 h11
  refine ⟨rfl, by simp; norm_num, ?_, ?_⟩
  · intro i j hi hj
    obtain rfl | rfl : i = 0 ∨ i = 1 := by omega
    all_goals (obtain rfl | rfl : j = 0 ∨ j = 1 := by omega)
    all_goals simp [productOf, Finset.sum_range_succ, fromUpper, h00, h01, h11]
  · intro i j hi hj
    obtain rfl | rfl : i = 0 ∨ i = 1 := by omega
    all_goals (obtain rfl | rfl : j = 0 ∨ j = 1 := by omega)
    all_goals simp [productOf, Finset.sum_range_succ, opOf]

/-- The upper triangle is that of `twoLevels`. -/
def upperTwo (n : Nat) (g : Nat → Nat → ℝ) : Prop := n = 2 ∧ ∀ i j, i < 2 → j < 2 → i ≤ j → g i j = twoLevels i j

open Classical in
/-- A library that meets its contract: it diagonalizes `twoLevels`, and reports an error for every other matrix. -/
noncomputable def twoLevelLib : EigLib where
  workAll := fun n _ => n
  workSome := fun n _ => n
  syevd := fun n f => if upperTwo n f then ⟨0, [-1, 2], fun i j => if i = j then 1 else 0⟩ else ⟨1, [], fun _ _ => 0⟩
  syevr := fun n r f => match r with
    | .index _ k => if upperTwo n f ∧ 1 ≤ k ∧ k ≤ 2
      then ⟨0, [-1, 2].take k.toNat, fun i j => if i = j then 1 else 0⟩ else ⟨1, [], fun _ _ => 0⟩
    | .value vl vu => if upperTwo n f
      then ⟨0, [-1, 2].filter fun x => vl < x ∧ x ≤ vu, fun _ _ => 0⟩ else ⟨1, [], fun _ _ => 0⟩
  heev := fun _ _ => ⟨1, [], fun _ _ => 0⟩

theorem twoLevelLib_contract : EigContract twoLevelLib where
  all := by
    intro n f h
    by_cases hu : upperTwo n f
    · have hv : (twoLevelLib.syevd n f) = ⟨0, [-1, 2], fun i j => if i = j then 1 else 0⟩ := by
        simp only [twoLevelLib, if_pos hu]
      obtain ⟨rfl, hf⟩ := hu
      rw [hv]
      exact twoLevels_spectrum f hf
    · simp [twoLevelLib, if_neg hu] at h
  some := by
    intro n f k h
    by_cases hu : upperTwo n f ∧ 1 ≤ (k : Int) ∧ (k : Int) ≤ 2
    · have hv : (twoLevelLib.syevr n (.index 1 k) f) = ⟨0, [-1, 2].take (k : Int).toNat, fun i j => if i = j then 1 else 0⟩ := by
        simp only [twoLevelLib, if_pos hu]
      obtain ⟨⟨rfl, hf⟩, h1, h2⟩ := hu
      refine ⟨by omega, by omega, [-1, 2], fun i j => if i = j then 1 else 0, twoLevels_spectrum f hf, ?_, ?_⟩
      · rw [hv]; simp
      · intro i j _ _
        rw [hv]
    · simp only [twoLevelLib, if_neg hu] at h
      exact absurd h (by simp)
  none := by
    intro n f k hk
    simp only [twoLevelLib, if_neg (show ¬ (upperTwo n f ∧ 1 ≤ k ∧ k ≤ 2) by omega)]
    simp
  value := by
    intro n f vl vu h
    by_cases hu : upperTwo n f
    · have hv : (twoLevelLib.syevr n (.value vl vu) f) = ⟨0, [-1, 2].filter fun x => vl < x ∧ x ≤ vu, fun _ _ => 0⟩ := by
        simp only [twoLevelLib, if_pos hu]
      obtain ⟨rfl, hf⟩ := hu
      refine ⟨[-1, 2], fun i j => if i = j then 1 else 0, twoLevels_spectrum f hf, ?_⟩
      rw [hv]
    · simp only [twoLevelLib, if_neg hu] at h
      exact absurd h (by simp)
  complex := by
    intro n f h
    simp [twoLevelLib] at h

/-- `twoLevels` on one process. -/
def twoLevelMat : PMat ℝ := ⟨2, 2, 1, 1, 2, twoLevels⟩

theorem upperTwo_self : upperTwo 2 twoLevels := ⟨rfl, fun _ _ _ _ _ => rfl⟩

theorem twoLevels_hermitian : IsHermitianOn 2 twoLevels := by
  intro i j hi hj
  obtain rfl | rfl : i = 0 ∨ i = 1 := by omega
  all_goals (obtain rfl | rfl : j = 0 ∨ j = 1 := by omega)
  all_goals simp [twoLevels]

/-- The manual promises the `numRelaxonsEigenvalues` largest eigenvalues; those returned are the lowest.  The eigenvalues of
`twoLevelMat` are `-1` and `2`: asked for one of them, the program returns `-1`. -/
theorem C187_violated_largest : ∃ (lib : EigLib) (a : PMat ℝ) (d : Diag ℝ), EigContract lib ∧
    IsHermitianOn a.numRows a.entry ∧ a.diagonalizeSome lib 1 true = .ok d ∧ d.values = [-1] ∧
    IsSpectrum (fun x => x) a.numRows a.entry [-1, 2] (fun i j => if i = j then 1 else 0) := by
  have hv : (twoLevelLib.syevr 2 (.index 1 1) twoLevels) = ⟨0, [-1, 2].take (1 : Int).toNat, fun i j => if i = j then 1 else 0⟩ := by
    simp only [twoLevelLib, if_pos (show upperTwo 2 twoLevels ∧ (1 : Int) ≤ 1 ∧ (1 : Int) ≤ 2 from ⟨upperTwo_self, by omega, by omega⟩)]
  refine ⟨twoLevelLib, twoLevelMat, ⟨[-1], fun i j => if i = j then 1 else 0, negativeCheck twoLevelLib twoLevelMat⟩, twoLevelLib_contract,
    twoLevels_hermitian, ?_, rfl, ?_⟩
  · rw [some_eq twoLevelLib twoLevelMat 2 rfl rfl rfl, show min (1 : Int) ((2 : Nat) : Int) = 1 by omega,
      show twoLevelMat.entry = twoLevels from rfl, hv]
    rw [show twoLevelLib.workSome 2 twoLevelMat.numBlasRows = 2 by simp [twoLevelLib], workLength_ok (by norm_num) (by norm_num),
      Outcome.bind_ok, show liworkSome 2 twoLevelMat.numBlasRows twoLevelMat.numBlasCols = .ok 52 by decide, Outcome.bind_ok]
    rw [if_neg (by simp), if_neg (by omega), firstValues_ok _ _ (by simp), Outcome.bind_ok]
    simp
  · exact spectrum_congr (twoLevels_spectrum twoLevels upperTwo_self.2)
      fun i j hi hj => fromUpper_hermitian twoLevels_hermitian i j hi hj

/-- All the eigenvalues of `twoLevelMat`: the hypotheses hold, and the negative one is in the warning. -/
example : ∃ d, twoLevelMat.diagonalizeAll twoLevelLib = .ok d ∧ (0, (-1 : ℝ)) ∈ d.reported := by
  obtain ⟨h1, h2⟩ := C187_all_partial twoLevelLib twoLevelLib_contract twoLevelMat 2 (by omega) rfl rfl rfl twoLevels_hermitian
  have hv : (twoLevelLib.syevd 2 twoLevels) = ⟨0, [-1, 2], fun i j => if i = j then 1 else 0⟩ := by
    simp only [twoLevelLib, if_pos upperTwo_self]
  obtain ⟨d, hd⟩ := h2 (by simp [twoLevelMat]) (by simp [twoLevelLib]) (by simp [twoLevelLib]; norm_num) (by
    show (twoLevelLib.syevd 2 twoLevels).info = 0
    rw [hv])
  refine ⟨d, hd, ?_⟩
  have hvals : d.values = [-1, 2] := by
    have : twoLevelMat.diagonalizeAll twoLevelLib = .ok ⟨[-1, 2], fun i j => if i = j then 1 else 0, nonPositives 0 [-1, 2]⟩ := by
      unfold PMat.diagonalizeAll
      rw [if_neg (by simp [twoLevelMat]), if_neg (by simp [twoLevelMat]), show twoLevelMat.numRows = 2 from rfl,
        show twoLevelMat.entry = twoLevels from rfl, show liworkAll 2 twoLevelMat.numBlasCols = .ok 24 by decide,
        Outcome.bind_eq, Outcome.bind_ok, show twoLevelLib.workAll 2 twoLevelMat.numBlasRows = 2 by simp [twoLevelLib],
        workLength_ok (by norm_num) (by norm_num), Outcome.bind_eq, Outcome.bind_ok]
      simp only [hv]
      rw [if_neg (by simp), show readAt [(-1 : ℝ), 2] 0 = .ok (-1) from rfl, Outcome.bind_eq, Outcome.bind_ok,
        firstValues_ok _ _ (by simp), Outcome.bind_eq, Outcome.bind_ok, if_pos (by norm_num)]
      rfl
    rw [this] at hd
    rw [← Outcome.ok.inj hd]
  rw [(h1 d hd).2, hvals]
  exact ⟨⟨-1, by simp, by norm_num⟩, 0, by omega, by simp, by simp⟩

end Verif.Props
