import Verif.Proofs.Utilities
import Verif.Spec.Text
/-!
# Properties C01-C05: src/utilities
-/
namespace Verif.Props
open Verif.Model

/-! ## C01 index packing -/

/-- Packing an in-range pair succeeds without overflow, lands in `[0, s1*s2)`, and unpacks to the pair. -/
theorem C01_pair_roundtrip (s1 s2 i1 i2 : Int) (h1 : 0 ≤ i1 ∧ i1 < s1) (h2 : 0 ≤ i2 ∧ i2 < s2)
    (hfit : s1 * s2 ≤ intMax) :
    ∃ k, compress2Indices i1 i2 s1 s2 = .ok k ∧ 0 ≤ k ∧ k < s1 * s2 ∧
      decompress2Indices k s1 s2 = .ok (i1, i2) := by
  obtain ⟨a, b, c, d⟩ := nonneg_mul_lt h1.1 h1.2 h2.1 h2.2
  refine ⟨i1 * s2 + i2, compress2_val h1.1 h1.2 h2.1 h2.2 (by omega), a, b, ?_⟩
  rw [decompress2_val a (by omega) (by omega), add_mul_ediv_lt h2.1 h2.2]
  have : (i1 * s2 + i2) % s2 = i2 := by
    rw [add_comm, Int.add_mul_emod_self_right, Int.emod_eq_of_lt h2.1 h2.2]
  rw [this]

example : ∃ k, compress2Indices 2 3 4 5 = .ok k ∧ decompress2Indices k 4 5 = .ok (2, 3) := ⟨13, by decide⟩

/-- Unpacking an in-range packed index succeeds, gives in-range indices, and packs back to it. -/
theorem C01_pair_surjective (s1 s2 k : Int) (h1 : 0 < s1) (h2 : 0 < s2) (hfit : s1 * s2 ≤ intMax)
    (hk : 0 ≤ k ∧ k < s1 * s2) :
    ∃ i1 i2, decompress2Indices k s1 s2 = .ok (i1, i2) ∧ (0 ≤ i1 ∧ i1 < s1) ∧ (0 ≤ i2 ∧ i2 < s2) ∧
      compress2Indices i1 i2 s1 s2 = .ok k := by
  have a : 0 ≤ k / s2 := Int.ediv_nonneg hk.1 (by omega)
  have b : k / s2 * s2 + k % s2 = k := by rw [mul_comm]; exact Int.mul_ediv_add_emod k s2
  have c : 0 ≤ k % s2 := Int.emod_nonneg _ (by omega)
  have d : k % s2 < s2 := Int.emod_lt_of_pos _ h2
  have e : k / s2 < s1 := Int.ediv_lt_of_lt_mul h2 hk.2
  refine ⟨k / s2, k % s2, decompress2_val hk.1 (by omega) h2, ⟨a, e⟩, ⟨c, d⟩, ?_⟩
  rw [compress2_val a e c d (by omega), b]

example : ∃ i1 i2, decompress2Indices 13 4 5 = .ok (i1, i2) ∧ compress2Indices i1 i2 4 5 = .ok 13 :=
  ⟨2, 3, by decide⟩

/-- Distinct in-range pairs have distinct packed indices. -/
theorem C01_pair_injective (s1 s2 i1 i2 j1 j2 k : Int) (h1 : 0 ≤ i1 ∧ i1 < s1) (h2 : 0 ≤ i2 ∧ i2 < s2)
    (h3 : 0 ≤ j1 ∧ j1 < s1) (h4 : 0 ≤ j2 ∧ j2 < s2) (hfit : s1 * s2 ≤ intMax)
    (hi : compress2Indices i1 i2 s1 s2 = .ok k) (hj : compress2Indices j1 j2 s1 s2 = .ok k) :
    i1 = j1 ∧ i2 = j2 := by
  obtain ⟨k1, e1, _, _, d1⟩ := C01_pair_roundtrip s1 s2 i1 i2 h1 h2 hfit
  obtain ⟨k2, e2, _, _, d2⟩ := C01_pair_roundtrip s1 s2 j1 j2 h3 h4 hfit
  rw [hi] at e1; rw [hj] at e2
  cases e1; cases e2
  rw [d1] at d2
  simpa using d2

example : compress2Indices 2 3 4 5 = .ok 13 := by decide

/-- Packing an in-range triple succeeds without overflow, lands in range, and unpacks to the triple. -/
theorem C01_triple_roundtrip (s1 s2 s3 i1 i2 i3 : Int) (h1 : 0 ≤ i1 ∧ i1 < s1) (h2 : 0 ≤ i2 ∧ i2 < s2)
    (h3 : 0 ≤ i3 ∧ i3 < s3) (hfit : s1 * s2 * s3 ≤ intMax) :
    ∃ k, compress3Indices i1 i2 i3 s1 s2 s3 = .ok k ∧ 0 ≤ k ∧ k < s1 * s2 * s3 ∧
      decompress3Indices k s1 s2 s3 = .ok (i1, i2, i3) := by
  exact triple_roundtrip h1.1 h1.2 h2.1 h2.2 h3.1 h3.2 hfit

example : ∃ k, compress3Indices 1 2 3 2 3 4 = .ok k ∧ decompress3Indices k 2 3 4 = .ok (1, 2, 3) :=
  ⟨23, by decide⟩

/-- Unpacking an in-range packed triple index gives in-range indices that pack back to it. -/
theorem C01_triple_surjective (s1 s2 s3 k : Int) (h1 : 0 < s1) (h2 : 0 < s2) (h3 : 0 < s3)
    (hfit : s1 * s2 * s3 ≤ intMax) (hk : 0 ≤ k ∧ k < s1 * s2 * s3) :
    ∃ i1 i2 i3, decompress3Indices k s1 s2 s3 = .ok (i1, i2, i3) ∧
      (0 ≤ i1 ∧ i1 < s1) ∧ (0 ≤ i2 ∧ i2 < s2) ∧ (0 ≤ i3 ∧ i3 < s3) ∧
      compress3Indices i1 i2 i3 s1 s2 s3 = .ok k := by
  have p23 : 0 < s2 * s3 := mul_pos h2 h3
  have hk2 : k < s1 * (s2 * s3) := by rw [← mul_assoc]; exact hk.2
  have a1 : 0 ≤ k / (s2 * s3) := Int.ediv_nonneg hk.1 (by omega)
  have a2 : k / (s2 * s3) < s1 := Int.ediv_lt_of_lt_mul p23 hk2
  have r1 : 0 ≤ k % (s2 * s3) := Int.emod_nonneg _ (by omega)
  have r2 : k % (s2 * s3) < s2 * s3 := Int.emod_lt_of_pos _ p23
  have b1 : 0 ≤ k % (s2 * s3) / s3 := Int.ediv_nonneg r1 (by omega)
  have b2 : k % (s2 * s3) / s3 < s2 := Int.ediv_lt_of_lt_mul h3 r2
  have c1 : 0 ≤ k % (s2 * s3) % s3 := Int.emod_nonneg _ (by omega)
  have c2 : k % (s2 * s3) % s3 < s3 := Int.emod_lt_of_pos _ h3
  obtain ⟨k', hk', _, _, hd⟩ := C01_triple_roundtrip s1 s2 s3 _ _ _ ⟨a1, a2⟩ ⟨b1, b2⟩ ⟨c1, c2⟩ hfit
  have hval : k' = k := by
    have hv := compress3_val a1 a2 b1 b2 c1 c2 hfit
    rw [hk'] at hv
    have hv := Outcome.ok.inj hv
    have e1 := Int.mul_ediv_add_emod k (s2 * s3)
    have e2 := Int.mul_ediv_add_emod (k % (s2 * s3)) s3
    have : k / (s2 * s3) * s2 * s3 = s2 * s3 * (k / (s2 * s3)) := by ring
    have : k % (s2 * s3) / s3 * s3 = s3 * (k % (s2 * s3) / s3) := by ring
    omega
  subst hval
  exact ⟨_, _, _, hd, ⟨a1, a2⟩, ⟨b1, b2⟩, ⟨c1, c2⟩, hk'⟩

example : ∃ i1 i2 i3, decompress3Indices 23 2 3 4 = .ok (i1, i2, i3) ∧
    compress3Indices i1 i2 i3 2 3 4 = .ok 23 := ⟨1, 2, 3, by decide⟩

/-- Without the size bound the packing overflows: the bound in `C01_*` is needed. -/
theorem C01_overflow_without_bound :
    ∃ i1 i2 s1 s2 : Int, (0 ≤ i1 ∧ i1 < s1 ∧ s1 ≤ intMax) ∧ (0 ≤ i2 ∧ i2 < s2 ∧ s2 ≤ intMax) ∧
      compress2Indices i1 i2 s1 s2 = .ub := ⟨65536, 0, 65537, 65536, by decide⟩

/-! ## C02 positive modulo -/

/-- `mod(a,b)` is the representative of `a` modulo `b` in `[0,b)` for every `int` `a`, also negative,
and `b > 0` with `2b` representable. -/
theorem C02_mod_spec (a b : Int) (ha : intMin ≤ a ∧ a ≤ intMax) (hb : 0 < b) (hb2 : 2 * b - 1 ≤ intMax) :
    ∃ r, cmod a b = .ok r ∧ 0 ≤ r ∧ r < b ∧ ∃ q, a = q * b + r := by
  have hm : intMin = -2147483648 := rfl
  have hM : intMax = 2147483647 := rfl
  have t1 : a.tmod b < b := Int.tmod_lt_of_pos a hb
  have t2 : -b < a.tmod b := neg_lt_tmod a hb
  have td : b * a.tdiv b + a.tmod b = a := Int.mul_tdiv_add_tmod a b
  refine ⟨(a.tmod b + b).tmod b, ?_, ?_, ?_, ?_⟩
  · unfold cmod
    rw [crem_ok ha.1 ha.2 hb (by omega)]; simp only [Outcome.bind_eq, Outcome.bind]
    rw [cadd_ok (by omega) (by omega)]; simp only [Outcome.bind]
    exact crem_ok (by omega) (by omega) hb (by omega)
  · exact Int.tmod_nonneg _ (by omega)
  · exact Int.tmod_lt_of_pos _ hb
  · have e := Int.mul_tdiv_add_tmod (a.tmod b + b) b
    refine ⟨a.tdiv b - 1 + (a.tmod b + b).tdiv b, ?_⟩
    have : (a.tdiv b - 1 + (a.tmod b + b).tdiv b) * b
        = b * a.tdiv b - b + b * (a.tmod b + b).tdiv b := by ring
    omega

example : cmod (-7) 3 = .ok 2 ∧ cmod 7 3 = .ok 1 := by decide

/-- For larger moduli the intermediate sum can overflow: the bound on `b` is needed. -/
theorem C02_mod_large_modulus_overflows :
    ∃ a b : Int, (intMin ≤ a ∧ a ≤ intMax) ∧ (0 < b ∧ b ≤ intMax) ∧ cmod a b = .ub :=
  ⟨1073741824, 1073741825, by decide⟩

/-- `mod(a,0)` is undefined (division by zero), so a positive modulus is needed. -/
theorem C02_mod_zero (a : Int) : cmod a 0 = .ub := by simp [cmod, crem]

/-! ## C03 splitting a vector -/

/-- With a positive chunk size the loop terminates (within `length + 1` tests of its condition) and
returns non-empty chunks whose concatenation is the vector; all but the last have the requested size and
the last at most that size. -/
theorem C03_split (v : List α) (c : Nat) (hc : 0 < c) :
    ∃ chunks, (∀ fuel, v.length < fuel → splitVector fuel v c = .ok chunks) ∧
      chunks.flatten = v ∧ (∀ ch ∈ chunks, ch ≠ [] ∧ ch.length ≤ c) ∧
      (∀ i, i + 1 < chunks.length → ∀ ch, chunks[i]? = some ch → ch.length = c) :=
  splitVector_spec v c hc

example : splitVector 10 [1, 2, 3, 4, 5] 2 = .ok [[1, 2], [3, 4], [5]] := by decide
example : splitVector 10 [1, 2, 3, 4] 2 = .ok [[1, 2], [3, 4]] := by decide

/-- With chunk size zero and a non-empty vector the loop never ends, whatever the number of steps. -/
theorem C03_zero_chunk_diverges (v : List α) (hv : v ≠ []) (fuel : Nat) :
    splitVector fuel v 0 = .diverge := by
  unfold splitVector
  induction fuel with
  | zero => rfl
  | succ n ih =>
    cases v with
    | nil => exact absurd rfl hv
    | cons a t => simp [splitVectorLoop, ih]

example : ([1] : List Nat) ≠ [] := by decide

/-! ## C04 convergence test

The property would be: `findMaxRelativeDifference` returns a value below `eps` only if every relative
difference is below `eps`.  The code computes the minimum, so it is false. -/

/-- The full property C04 is violated: one component did not change, another one changed by a factor 5, and
the reported "maximum" difference is 0. -/
theorem C04_violated :
    ∃ (diff : List Rat) (m eps : Rat), findMaxRelativeDifference 100000000000000000000 diff = .ok m ∧
      m < eps ∧ ∃ d ∈ diff, ¬ d < eps := ⟨[0, 5], 0, 1, by decide⟩

/-- What the code does guarantee, for every tensor: the returned value is the *smallest* relative
difference, attained by some component. -/
theorem C04_returns_minimum (diff : List Rat) (m : Rat)
    (h : findMaxRelativeDifference 100000000000000000000 diff = .ok m) :
    m ∈ diff ∧ ∀ d ∈ diff, m ≤ d := by
  unfold findMaxRelativeDifference at h
  simp only at h
  split at h
  · cases h
  · cases h
    rename_i hne
    obtain ⟨h1, h2, h3⟩ := scanDiff_spec diff (100000000000000000000 : Rat)
    refine ⟨?_, h2⟩
    rcases h3 with h3 | h3
    · exact absurd h3 hne
    · exact h3

example : findMaxRelativeDifference (100000000000000000000 : Rat) [3, 2, 5] = .ok 2 := by decide

/-- C04 restricted to tensors in which all components have the same relative difference (in particular a
single component): then a reported value below `eps` does mean convergence.  Missing with respect to C04:
tensors whose components converge at different rates, for which the claim is false (`C04_violated`). -/
theorem C04_uniform_partial (diff : List Rat) (m eps : Rat)
    (h : findMaxRelativeDifference 100000000000000000000 diff = .ok m)
    (hu : ∀ d ∈ diff, ∀ d' ∈ diff, d = d') (hm : m < eps) : ∀ d ∈ diff, d < eps := by
  obtain ⟨h1, _⟩ := C04_returns_minimum diff m h
  intro d hd
  rw [hu d hd m h1]; exact hm

example : ∃ m, findMaxRelativeDifference (100000000000000000000 : Rat) [3] = .ok m := ⟨3, by decide⟩

/-! ## C05 tokenizer -/

/-- The tokens are exactly the maximal runs of non-separator characters, in order. -/
theorem C05_tokenize (s : List Char) : Spec.Tokens s (tokenize s) := tokenize_tokens s

/-- The specification determines the tokens, so `C05_tokenize` fixes the output completely. -/
theorem C05_tokens_unique (s : List Char) (ts : List (List Char)) (h : Spec.Tokens s ts) :
    ts = tokenize s := tokens_unique s ts h

example : tokenize "ab, c| \"d".toList = ["ab".toList, "c".toList, "d".toList] := by decide

end Verif.Props
