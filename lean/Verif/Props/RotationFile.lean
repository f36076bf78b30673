import Verif.Proofs.RotationFile
import Verif.Props.Points
import Mathlib.Tactic.NormNum

/-! # C188: reading of the rotation matrices -/
namespace Verif.Props
open Verif.Model Verif.Spec

/-- Complete files.  For every crystal mesh, every order of the wavevectors in the two files, every number of bands and of Wannier
functions: at every wavevector of the mesh the program has the product of the two matrices of the files for that wavevector, or
the first matrix, if there is no second file. -/
theorem C188_rotation (wannierPrefix : String) (hp : wannierPrefix ≠ "") (title title' : List FileWord) (points : Points)
    (nb nw : Nat) (ks ks' : List (V3 Rat)) (u d : Nat → Nat → Nat → Rat × Rat) (index index' : Nat → Nat)
    (h : ListsMesh points ks index) (h' : ListsMesh points ks' index') (hlen : ks.length = ks'.length) :
    (∃ t, setupRotationMatrices wannierPrefix (some (rotationFile title nw nw ks u)) none points = .ok t ∧
      t.rows = nw ∧ t.cols = nw ∧ t.depth = ks.length ∧
      ∀ w i j, w < ks.length → i < nw → j < nw → t.entry i j (index w) = complexOf (u w i j)) ∧
    ∃ t, setupRotationMatrices wannierPrefix (some (rotationFile title nw nw ks u)) (some (rotationFile title' nb nw ks' d)) points = .ok t ∧
      t.rows = nb ∧ t.cols = nw ∧ t.depth = ks.length ∧
      ∀ w w' i j, w < ks.length → w' < ks'.length → index w = index' w' → i < nb → j < nw →
        t.entry i j (index w) = ∑ l ∈ Finset.range nw, complexOf (d w' i l) * complexOf (u w l j) := by
  obtain ⟨t, ht, h1, h2, h3, h4⟩ := readBody_val points nw nw ks u index h
  obtain ⟨s, hs, g1, g2, g3, g4⟩ := readBody_val points nb nw ks' d index' h'
  constructor
  · refine ⟨t, ?_, h1, h2, h3, h4⟩
    unfold setupRotationMatrices rotationFile
    rw [if_neg hp]
    simp only [readHeader_val, Outcome.bind_eq, Outcome.bind_ok]
    rw [ht, Outcome.bind_ok]
  · obtain ⟨r, hr, f1, f2, f3, f4⟩ := rotationTensorProduct_val s t (by omega) (by omega) (by omega)
    refine ⟨r, ?_, by omega, by omega, by omega, ?_⟩
    · unfold setupRotationMatrices rotationFile
      rw [if_neg hp]
      simp only [readHeader_val, Outcome.bind_eq, Outcome.bind_ok]
      rw [ht, Outcome.bind_ok, hs, Outcome.bind_ok]
      exact hr
    · intro w w' i j hw hw' hww hi hj
      have := (h.1 w hw).2
      rw [f4 i j (index w) (by omega) (by omega) (by omega), g2]
      refine Finset.sum_congr rfl fun l hl => ?_
      rw [Finset.mem_range] at hl
      rw [h4 w l j hw hl hj, hww, g4 w' i l hw' hi hl]

theorem foldOutcome_append' {β σ : Type} (f : β → σ → Outcome σ) (l l' : List β) (s : σ) :
    foldOutcome f (l ++ l') s = (foldOutcome f l s >>= foldOutcome f l') := by
  induction l generalizing s with
  | nil => rfl
  | cons b l ih =>
    rw [List.cons_append]
    unfold foldOutcome
    cases hb : f b s with
    | ok x => simp only [Outcome.bind_eq, Outcome.bind_ok]; rw [← Outcome.bind_eq]; exact ih x
    | error => rfl
    | ub => rfl
    | diverge => rfl

theorem readPoints_stop (points : Points) (kv : Nat → V3 Rat) (m : Nat → Nat → Nat → Rat × Rat) (index : Nat → Nat)
    (rest : TextStream) (n w : Nat) (hw : w < n) (t : RotTensor)
    (hL : ∀ v, v < w → points.getIndex (kv v) = .ok (index v : Int) ∧ index v < t.depth)
    (hinj : ∀ v v', v < w → v' < w → index v = index v' → v = v') (o : Outcome (TextStream × RotTensor)) (ho : ∀ x, o ≠ .ok x)
    (hstop : ∀ e, readRotationPoint points w ([] :: rest, { t with entry := e }) = o) :
    foldOutcome (readRotationPoint points) (List.range n)
        ([] :: (((List.range w).flatMap fun v => rotationLines t.rows t.cols (kv v) (m v)) ++ rest), t) = o := by
  obtain ⟨e, he, -, -⟩ := readPoints_val points kv m index rest (List.range w) t (fun v hv => hL v (List.mem_range.1 hv))
    (fun v hv v' hv' => hinj v v' (List.mem_range.1 hv) (List.mem_range.1 hv'))
  have hsplit : List.range n = List.range w ++ (w :: (List.range (n - w - 1)).map (w + 1 + ·)) := by
    conv_lhs => rw [show n = w + (1 + (n - w - 1)) by omega, List.range_add, List.range_add, List.range_one]
    simp only [List.singleton_append, List.map_cons, Nat.add_zero, List.map_map, Function.comp_def, Nat.add_assoc]
  rw [hsplit, foldOutcome_append', he, Outcome.bind_eq, Outcome.bind_ok]
  unfold foldOutcome
  rw [hstop e]
  cases o with
  | ok x => exact absurd rfl (ho x)
  | error => rfl
  | ub => rfl
  | diverge => rfl

/-- What is refused: no prefix, no first file, and a wavevector that is not in the mesh. -/
theorem C188_refused (wannierPrefix : String) (title : List FileWord) (disFile : Option TextStream) (points : Points) (nw : Nat)
    (ks : List (V3 Rat)) (u : Nat → Nat → Nat → Rat × Rat) (index : Nat → Nat) (w : Nat) (hw : w < ks.length)
    (hL : ∀ v, v < w → points.getIndex (ks.getD v ⟨0, 0, 0⟩) = .ok (index v : Int) ∧ index v < ks.length)
    (hinj : ∀ v v', v < w → v' < w → index v = index v' → v = v')
    (hout : points.getIndex (ks.getD w ⟨0, 0, 0⟩) = .error) :
    (∀ f, setupRotationMatrices "" f disFile points = .error) ∧
    setupRotationMatrices wannierPrefix none disFile points = .error ∧
    setupRotationMatrices wannierPrefix (some (rotationFile title nw nw ks u)) disFile points = .error := by
  refine ⟨fun f => by unfold setupRotationMatrices; rw [if_pos rfl], ?_, ?_⟩
  · unfold setupRotationMatrices
    split <;> rfl
  · unfold setupRotationMatrices
    split
    · rfl
    · unfold rotationFile
      simp only [readHeader_val, Outcome.bind_eq, Outcome.bind_ok]
      have hsplit : ((List.range ks.length).flatMap fun w => rotationLines nw nw (ks.getD w ⟨0, 0, 0⟩) (u w)) =
          ((List.range w).flatMap fun v => rotationLines nw nw (ks.getD v ⟨0, 0, 0⟩) (u v)) ++
          (rotationLines nw nw (ks.getD w ⟨0, 0, 0⟩) (u w) ++
            ((List.range (ks.length - w - 1)).flatMap fun v => rotationLines nw nw (ks.getD (w + 1 + v) ⟨0, 0, 0⟩) (u (w + 1 + v)))) := by
        conv_lhs => rw [show ks.length = w + (1 + (ks.length - w - 1)) by omega, List.range_add, List.range_add, List.range_one]
        simp only [List.singleton_append, List.map_cons, Nat.add_zero, List.map_map, Function.comp_def, Nat.add_assoc,
          List.flatMap_append, List.flatMap_cons, List.flatMap_map]
      unfold readRotationBody
      rw [if_neg (by omega), hsplit]
      simp only [Int.toNat_natCast]
      rw [readPoints_stop points (fun v => ks.getD v ⟨0, 0, 0⟩) u index _ ks.length w hw ⟨nw, nw, ks.length, fun _ _ _ => 0⟩ hL hinj .error
        (by simp)]
      · rfl
      · intro e
        unfold readRotationPoint
        simp only [rotationLines_eq, dropLine, List.cons_append, readWordDouble_skip, readWordDouble_num, Outcome.bind_eq, Outcome.bind_ok]
        rw [hout]; rfl

/-- A file that ends after its title is not refused either: the dimensions come from variables without a value. -/
theorem C188_violated_header (wannierPrefix : String) (hp : wannierPrefix ≠ "") (title : List FileWord) (disFile : Option TextStream)
    (points : Points) : setupRotationMatrices wannierPrefix (some [title]) disFile points = .ub := by
  unfold setupRotationMatrices
  rw [if_neg hp]
  rfl

/-- A file that ends before its last element: after the lines of the first `w` wavevectors and `c` elements of the next one.  It is
not refused: the missing elements come from variables without a value. -/
theorem C188_violated_truncated (wannierPrefix : String) (hp : wannierPrefix ≠ "") (title : List FileWord)
    (disFile : Option TextStream) (points : Points) (nw : Nat) (ks : List (V3 Rat)) (u : Nat → Nat → Nat → Rat × Rat)
    (index : Nat → Nat) (h : ListsMesh points ks index) (w c : Nat) (hw : w < ks.length) (hc : c < nw * nw) :
    setupRotationMatrices wannierPrefix (some ((rotationFile title nw nw ks u).take (2 + w * (2 + nw * nw) + 2 + c))) disFile points = .ub := by
  have hlenLines : ∀ v, (rotationLines nw nw (ks.getD v ⟨0, 0, 0⟩) (u v)).length = 2 + nw * nw := by
    intro v
    rw [rotationLines_eq]
    simp [rotationPairs, List.length_flatMap]
    omega
  have hpairs : (rotationPairs nw nw).length = nw * nw := by
    simp [rotationPairs, List.length_flatMap]
  have hcut : ∀ (n w : Nat) (kv : Nat → TextStream), w < n → (∀ v, (kv v).length = 2 + nw * nw) →
      ((List.range n).flatMap kv).take (w * (2 + nw * nw) + 2 + c) = ((List.range w).flatMap kv) ++ (kv w).take (2 + c) := by
    intro n w kv hwn hk
    have hl : ((List.range w).flatMap kv).length = w * (2 + nw * nw) := by
      rw [List.length_flatMap]
      simp [hk]
    conv_lhs => rw [show n = w + (1 + (n - w - 1)) by omega, List.range_add, List.range_add, List.range_one]
    simp only [List.singleton_append, List.map_cons, Nat.add_zero, List.flatMap_append, List.flatMap_cons]
    rw [List.take_append, hl, List.take_of_length_le (by omega),
      show w * (2 + nw * nw) + 2 + c - w * (2 + nw * nw) = 2 + c by omega, List.take_append_of_le_length (by rw [hk]; omega)]
  unfold setupRotationMatrices
  rw [if_neg hp]
  unfold rotationFile
  rw [show 2 + w * (2 + nw * nw) + 2 + c = (w * (2 + nw * nw) + 2 + c) + 1 + 1 by omega, List.take_succ_cons, List.take_succ_cons,
    hcut ks.length w _ hw hlenLines]
  simp only [readHeader_val, Outcome.bind_eq, Outcome.bind_ok]
  unfold readRotationBody
  rw [if_neg (by omega)]
  simp only [Int.toNat_natCast]
  rw [readPoints_stop points (fun v => ks.getD v ⟨0, 0, 0⟩) u index _ ks.length w hw ⟨nw, nw, ks.length, fun _ _ _ => 0⟩
    (fun v hv => h.1 v (by omega)) (fun v v' hv hv' => h.2 v v' (by omega) (by omega)) .ub (by simp)]
  · rfl
  · intro e
    rw [rotationLines_eq, show 2 + c = c + 1 + 1 by omega, List.take_succ_cons, List.take_succ_cons, ← List.map_take]
    unfold readRotationPoint
    simp only [dropLine, readWordDouble_skip, readWordDouble_num, Outcome.bind_eq, Outcome.bind_ok]
    rw [(h.1 w hw).1, Outcome.bind_ok]
    exact readEntries_short (u w) (index w) (rotationPairs nw nw) c (by omega) { rows := nw, cols := nw, depth := ks.length, entry := e }
      (fun p hp => mem_rotationPairs.1 hp) (h.1 w hw).2

/-- A file made for a smaller mesh: it is not refused; a wavevector whose index in the mesh is not below the number of wavevectors
of the file is written outside of the array. -/
theorem C188_violated_mesh (wannierPrefix : String) (hp : wannierPrefix ≠ "") (title : List FileWord)
    (disFile : Option TextStream) (points : Points) (nw : Nat) (hnw : 0 < nw) (ks : List (V3 Rat)) (u : Nat → Nat → Nat → Rat × Rat)
    (ik : Nat) (hk : 0 < ks.length) (h : points.getIndex (ks.getD 0 ⟨0, 0, 0⟩) = .ok (ik : Int)) (hik : ks.length ≤ ik) :
    setupRotationMatrices wannierPrefix (some (rotationFile title nw nw ks u)) disFile points = .ub := by
  unfold setupRotationMatrices
  rw [if_neg hp]
  unfold rotationFile
  simp only [readHeader_val, Outcome.bind_eq, Outcome.bind_ok]
  unfold readRotationBody
  rw [if_neg (by omega)]
  simp only [Int.toNat_natCast]
  obtain ⟨n, hn⟩ : ∃ n, ks.length = n + 1 := ⟨ks.length - 1, by omega⟩
  rw [hn, List.range_succ_eq_map]
  unfold foldOutcome readRotationPoint
  obtain ⟨w, rfl⟩ : ∃ w, nw = w + 1 := ⟨nw - 1, by omega⟩
  have hpairs : rotationPairs (w + 1) (w + 1) = (0, 0) :: (rotationPairs (w + 1) (w + 1)).tail := by
    simp [rotationPairs, List.range_succ_eq_map]
  simp only [List.flatMap_cons, rotationLines_eq, dropLine, List.cons_append, readWordDouble_skip, readWordDouble_num, Outcome.bind_eq,
    Outcome.bind_ok]
  rw [show (V3.mk (ks.getD 0 ⟨0, 0, 0⟩).x (ks.getD 0 ⟨0, 0, 0⟩).y (ks.getD 0 ⟨0, 0, 0⟩).z) = ks.getD 0 ⟨0, 0, 0⟩ from rfl, h, Outcome.bind_ok,
    hpairs]
  unfold foldOutcome readRotationEntry
  simp only [List.map_cons, entryLine, List.cons_append, readWordDouble_skip, readWordDouble_num, Outcome.bind_eq, Outcome.bind_ok]
  unfold RotTensor.set
  rw [if_neg (by simp only; omega)]
  rfl

/-- A mesh of two wavevectors, listed in the opposite order: the hypotheses hold. -/
example : ∃ points, setMesh ⟨2, 1, 1⟩ ⟨0, 0, 0⟩ = .ok points ∧
    ListsMesh points [⟨1 / 2, 0, 0⟩, ⟨0, 0, 0⟩] (fun w => 1 - w) := by
  refine ⟨_, rfl, ?_, ?_⟩
  · intro w hw
    obtain rfl | rfl : w = 0 ∨ w = 1 := by simp at hw; omega
    · exact ⟨by decide +kernel, by simp⟩
    · exact ⟨by decide +kernel, by simp⟩
  · intro v w hv hw hvw
    simp at hv hw hvw
    omega

end Verif.Props
