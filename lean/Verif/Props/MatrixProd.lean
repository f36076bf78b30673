import Verif.Proofs.MatrixProd

/-! # C157: products and eigenvectors of matrices -/
namespace Verif.Props
open Verif.Model Verif.Spec

/-- Serial matrices without transposition, any sizes (at least one row each): the product has the rows of the first and the
columns of the second matrix, and its elements are the sums of products.  Products with transposition of rectangular
matrices are missing (`C157_violated_serial`). -/
theorem C157_serial_partial {α : Type} [Semiring α] [StarRing α] (a b : SMat α) (m n k : Nat) (f g : Nat → Nat → α)
    (ha : IsMatrix a m k f) (hb : IsMatrix b k n g) (hm : 0 < m) (hk : 0 < k) :
    ∃ r, a.prod b .N .N = .ok r ∧ IsMatrix r m n (productOf k f g) := by
  obtain ⟨c', h1, h2⟩ := gemm_spec (.N) (.N) m n k a.mat m b.mat k (SMat.zeros m n : SMat α).mat hm
    (by simp [SMat.zeros]) f g (by simp; omega) (by simp; omega)
    (fun i l hi hl => get_readAt ha hi hl) (fun l j hl hj => get_readAt hb hl hj)
  refine ⟨⟨m, n, c'⟩, ?_, readAt_get c' h2⟩
  unfold SMat.prod
  rw [ha.1, ha.2.1, hb.1, hb.2.1, if_neg (by simp)]
  simp only [h1, Outcome.bind_eq, Outcome.bind_ok]
  rfl

/-- Square serial matrices of one size, for every choice of transposition or adjoint of either. -/
theorem C157_serial_square {α : Type} [Semiring α] [StarRing α] (ta tb : Tr) (a b : SMat α) (n : Nat)
    (f g : Nat → Nat → α) (ha : IsMatrix a n n f) (hb : IsMatrix b n n g) (hn : 0 < n) :
    ∃ r, a.prod b ta tb = .ok r ∧ IsMatrix r n n (productOf n (opOf ta f) (opOf tb g)) := by
  have hop : ∀ (t : Tr) (x : SMat α) (u : Nat → Nat → α), IsMatrix x n n u → ∀ i l : Nat, i < n → l < n →
      opEntry t x.mat n i l = .ok (opOf t u i l) := by
    intro t x u hx i l hi hl
    cases t with
    | N => exact get_readAt hx hi hl
    | T => exact get_readAt hx hl hi
    | C =>
      show (readAt x.mat (l + i * n)).bind _ = _
      rw [get_readAt hx hl hi]; rfl
  obtain ⟨c', h1, h2⟩ := gemm_spec ta tb n n n a.mat n b.mat n (SMat.zeros n n : SMat α).mat hn
    (by simp [SMat.zeros]) (opOf ta f) (opOf tb g) (by simp; omega) (by simp; omega)
    (fun i l hi hl => hop ta a f ha i l hi hl) (fun l j hl hj => hop tb b g hb l j hl hj)
  refine ⟨⟨n, n, c'⟩, ?_, readAt_get c' h2⟩
  unfold SMat.prod
  rw [ha.1, ha.2.1, hb.1, hb.2.1, if_neg (by simp)]
  simp only [h1, Outcome.bind_eq, Outcome.bind_ok]
  rfl

/-- A rectangular matrix: the product of its transpose with a matrix of as many rows is well defined, and refused.  And a
product that is not defined, that of a `1 × 2` matrix with the transpose of a `2 × 1` matrix, is not refused: it reads
beyond the end of the second. -/
theorem C157_violated_serial {α : Type} [Semiring α] [StarRing α] (a b : SMat α) (r c n : Nat) (f g : Nat → Nat → α)
    (ha : IsMatrix a r c f) (hb : IsMatrix b r n g) (hrc : r ≠ c) (x y z w : α) :
    opCols .T r c = opRows .N r n ∧ a.prod b .T .N = .error ∧
      opCols .N 1 2 ≠ opRows .T 2 1 ∧ (SMat.prod ⟨1, 2, [x, y]⟩ ⟨2, 1, [z, w]⟩ .N .T) = .ub := by
  refine ⟨rfl, ?_, by decide, rfl⟩
  unfold SMat.prod
  rw [if_pos (by rw [ha.2.1, hb.1]; exact fun e => hrc e.symm)]

/-- Distributed real matrices: the product is right if the first matrix is square (and, if the second is transposed, the
second too). -/
theorem C157_parallel_real_partial {α : Type} [Semiring α] [StarRing α] (ta tb : Tr) (a b : GMat α) (n c : Nat)
    (ha : a.numRows = n ∧ a.numCols = n) (hb : b.numRows = n ∧ b.numCols = c) (ht : tb = .N ∨ c = n) :
    ∃ r, a.prodReal b ta tb = .ok r ∧ r.numRows = opRows ta n n ∧ r.numCols = opCols tb n c ∧
      ∀ i j : Nat, i < r.numRows → j < r.numCols → r.elem i j = productOf n (opOf ta a.elem) (opOf tb b.elem) i j := by
  have hop : ∀ (x : GMat α) (t : Tr) (i l : Nat), x.op t i l = opOf t x.elem i l := by
    intro x t i l; cases t <;> rfl
  unfold GMat.prodReal
  rw [if_neg (by simp [ha.2, hb.1])]
  have hs : prodSizes a b ta tb = (n, c, n) := by
    unfold prodSizes
    rw [ha.1, ha.2, hb.1, hb.2]
    rcases ht with rfl | rfl <;> simp
  rw [hs]
  unfold pgemm
  have hfit : a.fits ta n n ∧ b.fits tb n c ∧ (⟨b.numRows, b.numCols, fun _ _ => 0⟩ : GMat α).fits .N n c := by
    unfold GMat.fits
    rw [ha.1, ha.2, hb.1, hb.2]
    rcases ht with rfl | rfl <;> simp
  simp only [if_pos hfit]
  refine ⟨_, rfl, ?_, ?_, ?_⟩
  · simp [opRows, hb.1]
  · rcases ht with rfl | rfl <;> simp [opCols, hb.2]
  · intro i j hi hj
    simp only [hb.1, hb.2] at hi hj
    simp only [if_pos (And.intro hi hj), sum_range_list, hop, productOf]

/-- Distributed complex matrices: the product is right if the second matrix is square (and, if the first is transposed, the
first too). -/
theorem C157_parallel_complex_partial {α : Type} [Semiring α] [StarRing α] (ta tb : Tr) (a b : GMat α) (n r : Nat)
    (ha : a.numRows = r ∧ a.numCols = n) (hb : b.numRows = n ∧ b.numCols = n) (ht : ta = .N ∨ r = n) :
    ∃ x, a.prodComplex b ta tb = .ok x ∧ x.numRows = opRows ta r n ∧ x.numCols = opCols tb n n ∧
      ∀ i j : Nat, i < x.numRows → j < x.numCols → x.elem i j = productOf n (opOf ta a.elem) (opOf tb b.elem) i j := by
  have hop : ∀ (x : GMat α) (t : Tr) (i l : Nat), x.op t i l = opOf t x.elem i l := by
    intro x t i l; cases t <;> rfl
  unfold GMat.prodComplex
  rw [if_neg (by simp [ha.2, hb.1])]
  have hs : prodSizes a b ta tb = (r, n, n) := by
    unfold prodSizes
    rw [ha.1, ha.2, hb.1, hb.2]
    rcases ht with rfl | rfl <;> simp
  rw [hs]
  unfold pgemm
  have hfit : a.fits ta r n ∧ b.fits tb n n ∧ (⟨a.numRows, a.numCols, fun _ _ => 0⟩ : GMat α).fits .N r n := by
    unfold GMat.fits
    rw [ha.1, ha.2, hb.1, hb.2]
    rcases ht with rfl | rfl <;> simp
  simp only [if_pos hfit]
  refine ⟨_, rfl, ?_, ?_, ?_⟩
  · rcases ht with rfl | rfl <;> simp [opRows, ha.1]
  · simp [opCols, ha.2]
  · intro i j hi hj
    simp only [ha.1, ha.2] at hi hj
    simp only [if_pos (And.intro hi hj), sum_range_list, hop, productOf]

/-- Distributed rectangular matrices without transposition.  The real product stops the program if the first matrix has more
rows than columns, and has too many rows if it has fewer; the complex product stops the program if the second matrix has
more columns than rows, and has too many columns if it has fewer. -/
theorem C157_violated_parallel {α : Type} [Semiring α] [StarRing α] (a b : GMat α) (m n k : Nat)
    (ha : a.numRows = m ∧ a.numCols = k) (hb : b.numRows = k ∧ b.numCols = n) :
    (k < m → a.prodReal b .N .N = .error) ∧
    (m < k → ∃ r, a.prodReal b .N .N = .ok r ∧ r.numRows ≠ m) ∧
    (k < n → a.prodComplex b .N .N = .error) ∧
    (n < k → ∃ r, a.prodComplex b .N .N = .ok r ∧ r.numCols ≠ n) := by
  obtain ⟨ra, ca, fa⟩ := a
  obtain ⟨rb, cb, fb⟩ := b
  simp only at ha hb
  obtain ⟨rfl, rfl⟩ := ha
  obtain ⟨rfl, rfl⟩ := hb
  unfold GMat.prodReal GMat.prodComplex
  simp only [ne_eq, not_true_eq_false, if_false, prodSizes, if_true, pgemm]
  refine ⟨fun h => ?_, fun h => ?_, fun h => ?_, fun h => ?_⟩
  · rw [if_neg]; simp [GMat.fits]; omega
  · rw [if_pos (by simp [GMat.fits]; omega)]; exact ⟨_, rfl, by simp; omega⟩
  · rw [if_neg]; simp [GMat.fits]; omega
  · rw [if_pos (by simp [GMat.fits]; omega)]; exact ⟨_, rfl, by simp; omega⟩

/-- Real symmetric matrices: eigenvalues and eigenvectors are those LAPACK finds, whatever the size; other shapes and failures
are refused. -/
theorem C157_eigenvectors_real (syev : Eigensolver ℝ) (hc : SolverContract (fun x => x) syev) (a : SMat ℝ) (r c : Nat)
    (f : Nat → Nat → ℝ) (ha : IsMatrix a r c f) :
    (r ≠ c → a.diagonalizeReal syev = .error) ∧
    ∀ e v, a.diagonalizeReal syev = .ok (e, v) → e.length = r ∧
      ∃ w, IsMatrix v r r w ∧ IsEigensystem (fun x => x) r f (fun j => e.getD j 0) w := by
  constructor
  · intro h
    unfold SMat.diagonalizeReal
    rw [if_pos (by rw [ha.1, ha.2.1]; exact h)]
  · intro e v h
    unfold SMat.diagonalizeReal at h
    split at h
    · cases h
    · rename_i hsq
      have hrc : r = c := by
        by_contra hne; exact hsq (by rw [ha.1, ha.2.1]; exact hne)
      subst hrc
      simp only [Outcome.bind_eq_ok_iff] at h
      obtain ⟨⟨info, e', m⟩, h1, h2⟩ := h
      simp only at h2
      split at h2
      · cases h2
      · rename_i hi
        have hi : info = 0 := by simpa using hi
        subst hi
        cases h2
        rw [ha.1] at h1
        obtain ⟨he, w, hw, hs⟩ := hc r f a ha e m h1
        refine ⟨he, w, ?_, hs⟩
        obtain ⟨x1, x2, x3⟩ := ha
        obtain ⟨ar, ac, am⟩ := a
        simp only at x1 x2
        subst x1; subst x2
        exact hw

/-- Complex Hermitian matrices: the matrix returned is zero, so that it never holds eigenvectors. -/
theorem C157_violated_eigenvectors (heev : Eigensolver ℂ) (a : SMat ℂ) (n : Nat) (f : Nat → Nat → ℂ) (hn : 0 < n)
    (ha : IsMatrix a n n f) (e : List ℝ) (m : List ℂ) (hs : heev a.mat n = .ok (0, e, m)) :
    ∃ v, a.diagonalizeComplex heev = .ok (e, v) ∧
      ¬ ∃ w, IsMatrix v n n w ∧ IsEigensystem (fun x => (x : ℂ)) n f (fun j => e.getD j 0) w := by
  refine ⟨SMat.zeros n n, ?_, ?_⟩
  · unfold SMat.diagonalizeComplex
    rw [if_neg (by rw [ha.1, ha.2.1]; simp), ha.1, ha.2.1]
    simp only [hs, Outcome.bind_eq, Outcome.bind_ok]
    simp
  · rintro ⟨w, hw, -, ho⟩
    have hz : ∀ i j : Nat, i < n → j < n → w i j = 0 := by
      intro i j hi hj
      have h1 := get_readAt hw hi hj
      unfold readAt at h1
      simp only [SMat.zeros, List.getElem?_replicate] at h1
      split at h1
      · rename_i v hv
        split at hv
        · rw [Option.some.injEq] at hv; rw [Outcome.ok.injEq] at h1; rw [← h1, ← hv]
        · cases hv
      · cases h1
    have := ho 0 0 hn hn
    simp only [productOf, if_true] at this
    rw [Finset.sum_eq_zero] at this
    · exact zero_ne_one this
    · intro l hl
      rw [Finset.mem_range] at hl
      rw [hz l 0 hl hn, mul_zero]

/-- A product of rectangular matrices. -/
example : ∃ r, (SMat.prod (⟨1, 2, [2, 3]⟩ : SMat ℝ) ⟨2, 2, [1, 4, 5, 6]⟩ .N .N) = .ok r ∧
    r.get 0 1 = .ok (2 * 5 + 3 * 6) := by
  obtain ⟨r, h, -, -, h3⟩ := C157_serial_partial (⟨1, 2, [2, 3]⟩ : SMat ℝ) ⟨2, 2, [1, 4, 5, 6]⟩ 1 2 2
    (fun _ l => if l = 0 then 2 else 3) (fun l j => if j = 0 then (if l = 0 then 1 else 4) else (if l = 0 then 5 else 6))
    (readAt_get _ (by
      intro i j hi hj
      obtain rfl : i = 0 := by omega
      obtain rfl | rfl : j = 0 ∨ j = 1 := by omega
      all_goals simp [readAt]))
    (readAt_get _ (by
      intro i j hi hj
      obtain rfl | rfl : i = 0 ∨ i = 1 := by omega
      all_goals (obtain rfl | rfl : j = 0 ∨ j = 1 := by omega)
      all_goals simp [readAt])) (by omega) (by omega)
  refine ⟨r, h, ?_⟩
  have := h3 0 1 (by omega) (by omega)
  rw [show ((1 : Nat) : Int) = (1 : Int) from rfl, show ((0 : Nat) : Int) = (0 : Int) from rfl] at this
  rw [this]
  simp [productOf, Finset.sum_range_succ]

/-- A solver, for matrices with one row, that meets the contract and succeeds. -/
example : ∃ syev : Eigensolver ℝ, SolverContract (fun x => x) syev ∧
    SMat.diagonalizeReal syev ⟨1, 1, [5]⟩ = .ok ([5], ⟨1, 1, [1]⟩) := by
  refine ⟨fun l n => match n, l with
    | 1, [x] => .ok (0, [x], [1])
    | _, _ => .ok (1, [], []), ?_, ?_⟩
  · intro n f a ha e m h
    simp only at h
    split at h
    · rename_i x hx
      cases h
      have h0 := get_readAt ha (show 0 < 1 by omega) (show 0 < 1 by omega)
      rw [hx] at h0
      simp only [readAt, Nat.zero_mul, Nat.add_zero, List.getElem?_cons_zero, Outcome.ok.injEq] at h0
      refine ⟨rfl, fun _ _ => 1, readAt_get _ ?_, ?_, ?_⟩
      · intro i j hi hj
        obtain rfl : i = 0 := by omega
        obtain rfl : j = 0 := by omega
        rfl
      · intro i j hi hj
        obtain rfl : i = 0 := by omega
        obtain rfl : j = 0 := by omega
        simp [productOf, h0]
      · intro i j hi hj
        obtain rfl : i = 0 := by omega
        obtain rfl : j = 0 := by omega
        simp [productOf, opOf]
    · cases h
  · simp [SMat.diagonalizeReal, Outcome.bind_eq, Outcome.bind_ok]

end Verif.Props
