import Verif.Spec.RotationFile
import Verif.Proofs.Atoms
import Mathlib.Algebra.BigOperators.Intervals
import Mathlib.Tactic.Ring

/-! # Reading of rotation matrices -/
namespace Verif.Props
open Verif.Model Verif.Spec

theorem readWordDouble_num (q : Rat) (ws : List FileWord) (ls : TextStream) :
    readWordDouble ((.num q :: ws) :: ls) = .ok (q, ws :: ls) := rfl

theorem readWordDouble_skip (ls : TextStream) : readWordDouble ([] :: ls) = readWordDouble ls := rfl

/-- The line of an element. -/
def entryLine (m : Nat → Nat → Rat × Rat) (p : Nat × Nat) : List FileWord := [.num (m p.1 p.2).1, .num (m p.1 p.2).2]

theorem rotationLines_eq (rows cols : Nat) (k : V3 Rat) (m : Nat → Nat → Rat × Rat) :
    rotationLines rows cols k m = [] :: [.num k.x, .num k.y, .num k.z] :: (rotationPairs rows cols).map (entryLine m) := by
  unfold rotationLines rotationPairs entryLine
  rw [List.map_flatMap]
  simp only [List.map_map, Function.comp_def]

theorem mem_rotationPairs {rows cols : Nat} {p : Nat × Nat} : p ∈ rotationPairs rows cols ↔ p.1 < rows ∧ p.2 < cols := by
  unfold rotationPairs
  simp only [List.mem_flatMap, List.mem_range, List.mem_map]
  constructor
  · rintro ⟨j, hj, i, hi, rfl⟩; exact ⟨hi, hj⟩
  · rintro ⟨h1, h2⟩; exact ⟨p.2, h2, p.1, h1, rfl⟩

/-- The elements of one wavevector. -/
theorem readEntries_val (m : Nat → Nat → Rat × Rat) (k : Nat) (L : List (Nat × Nat)) (rest : TextStream) (t : RotTensor)
    (hL : ∀ p ∈ L, p.1 < t.rows ∧ p.2 < t.cols) (hk : k < t.depth) :
    ∃ e, foldOutcome (readRotationEntry k) L ([] :: (L.map (entryLine m) ++ rest), t) = .ok ([] :: rest, { t with entry := e }) ∧
      (∀ p ∈ L, e p.1 p.2 k = complexOf (m p.1 p.2)) ∧
      (∀ a b c, ((a, b) ∉ L ∨ c ≠ k) → e a b c = t.entry a b c) := by
  induction L generalizing t with
  | nil => exact ⟨t.entry, rfl, by simp, fun _ _ _ _ => rfl⟩
  | cons p L ih =>
    have hp := hL p (by simp)
    have hset : t.set p.1 p.2 (k : Int) (complexOf (m p.1 p.2)) =
        .ok { t with entry := fun a b c => if a = p.1 ∧ b = p.2 ∧ (c : Int) = k then complexOf (m p.1 p.2) else t.entry a b c } := by
      unfold RotTensor.set
      rw [if_pos ⟨hp.1, hp.2, by omega, by omega⟩]
    obtain ⟨e, he, h1, h2⟩ := ih { t with entry := fun a b c => if a = p.1 ∧ b = p.2 ∧ (c : Int) = k then complexOf (m p.1 p.2) else t.entry a b c }
      (fun q hq => hL q (by simp [hq])) hk
    refine ⟨e, ?_, ?_, ?_⟩
    · have hone : readRotationEntry (k : Int) p ([] :: ((p :: L).map (entryLine m) ++ rest), t) =
          .ok ([] :: (L.map (entryLine m) ++ rest), { t with entry := fun a b c => if a = p.1 ∧ b = p.2 ∧ (c : Int) = k then complexOf (m p.1 p.2) else t.entry a b c }) := by
        unfold readRotationEntry
        simp only [List.map_cons, List.cons_append, entryLine, readWordDouble_skip, readWordDouble_num, Outcome.bind_eq, Outcome.bind_ok]
        have hset' := hset
        unfold complexOf at hset'
        rw [hset', Outcome.bind_ok]
        rfl
      unfold foldOutcome
      rw [hone, Outcome.bind_eq, Outcome.bind_ok]
      exact he
    · intro q hq
      by_cases hqL : q ∈ L
      · exact h1 q hqL
      · rcases List.mem_cons.1 hq with rfl | hq'
        · rw [h2 _ _ _ (Or.inl hqL)]; simp
        · exact absurd hq' hqL
    · intro a b c hab
      have : e a b c = if a = p.1 ∧ b = p.2 ∧ (c : Int) = k then complexOf (m p.1 p.2) else t.entry a b c := by
        apply h2
        rcases hab with h | h
        · exact .inl fun hh => h (by simp [hh])
        · exact .inr h
      rw [this, if_neg]
      rintro ⟨rfl, rfl, hc⟩
      rcases hab with h | h
      · exact h (by simp)
      · omega

/-- Elements that are missing. -/
theorem readEntries_short (m : Nat → Nat → Rat × Rat) (k : Nat) (L : List (Nat × Nat)) (c : Nat) (hc : c < L.length) (t : RotTensor)
    (hL : ∀ p ∈ L, p.1 < t.rows ∧ p.2 < t.cols) (hk : k < t.depth) :
    foldOutcome (readRotationEntry k) L ([] :: (L.take c).map (entryLine m), t) = .ub := by
  induction L generalizing t c with
  | nil => simp at hc
  | cons p L ih =>
    have hp := hL p (by simp)
    unfold foldOutcome
    rcases c with _ | c
    · rfl
    · have hone : ∃ t' : RotTensor, t'.rows = t.rows ∧ t'.cols = t.cols ∧ t'.depth = t.depth ∧
          readRotationEntry (k : Int) p ([] :: ((p :: L).take (c + 1)).map (entryLine m), t) =
          .ok ([] :: (L.take c).map (entryLine m), t') := by
        have hset : t.set p.1 p.2 (k : Int) (complexOf (m p.1 p.2)) =
            .ok { t with entry := fun a b c => if a = p.1 ∧ b = p.2 ∧ (c : Int) = k then complexOf (m p.1 p.2) else t.entry a b c } := by
          unfold RotTensor.set
          rw [if_pos ⟨hp.1, hp.2, by omega, by omega⟩]
        refine ⟨{ t with entry := fun a b c => if a = p.1 ∧ b = p.2 ∧ (c : Int) = k then complexOf (m p.1 p.2) else t.entry a b c }, rfl, rfl, rfl, ?_⟩
        unfold readRotationEntry
        simp only [List.take_succ_cons, List.map_cons, entryLine, readWordDouble_skip, readWordDouble_num, Outcome.bind_eq, Outcome.bind_ok]
        have hset' := hset
        unfold complexOf at hset'
        rw [hset', Outcome.bind_ok]
        rfl
      obtain ⟨t', e1, e2, e3, hone⟩ := hone
      rw [hone, Outcome.bind_eq, Outcome.bind_ok]
      exact ih c (by simpa using hc) t' (fun q hq => by rw [e1, e2]; exact hL q (by simp [hq])) (by omega)

/-- One wavevector. -/
theorem readPoint_val (points : Points) (w : Nat) (kv : V3 Rat) (m : Nat → Nat → Rat × Rat) (ik : Nat) (rest : TextStream)
    (t : RotTensor) (hi : points.getIndex kv = .ok (ik : Int)) (hk : ik < t.depth) :
    ∃ e, readRotationPoint points w ([] :: (rotationLines t.rows t.cols kv m ++ rest), t) =
        .ok ([] :: rest, { t with entry := e }) ∧
      (∀ i j, i < t.rows → j < t.cols → e i j ik = complexOf (m i j)) ∧
      (∀ a b c, c ≠ ik → e a b c = t.entry a b c) := by
  obtain ⟨e, he, h1, h2⟩ := readEntries_val m ik (rotationPairs t.rows t.cols) rest t (fun p hp => mem_rotationPairs.1 hp) hk
  refine ⟨e, ?_, fun i j hi hj => h1 (i, j) (mem_rotationPairs.2 ⟨hi, hj⟩), fun a b c hc => h2 a b c (.inr hc)⟩
  unfold readRotationPoint
  simp only [rotationLines_eq, dropLine, List.cons_append, readWordDouble_skip, readWordDouble_num, Outcome.bind_eq, Outcome.bind_ok]
  rw [hi, Outcome.bind_ok]
  exact he

/-- Wavevectors one after the other. -/
theorem readPoints_val (points : Points) (kv : Nat → V3 Rat) (m : Nat → Nat → Nat → Rat × Rat) (index : Nat → Nat)
    (rest : TextStream) (L : List Nat) (t : RotTensor) (hL : ∀ w ∈ L, points.getIndex (kv w) = .ok (index w : Int) ∧ index w < t.depth)
    (hinj : ∀ v ∈ L, ∀ w ∈ L, index v = index w → v = w) :
    ∃ e, foldOutcome (readRotationPoint points) L
        ([] :: ((L.flatMap fun w => rotationLines t.rows t.cols (kv w) (m w)) ++ rest), t) = .ok ([] :: rest, { t with entry := e }) ∧
      (∀ w ∈ L, ∀ i j, i < t.rows → j < t.cols → e i j (index w) = complexOf (m w i j)) ∧
      (∀ a b c, (∀ w ∈ L, index w ≠ c) → e a b c = t.entry a b c) := by
  induction L generalizing t with
  | nil => exact ⟨t.entry, rfl, by simp, fun _ _ _ _ => rfl⟩
  | cons w L ih =>
    have hw := hL w (by simp)
    obtain ⟨e1, he1, h1, h2⟩ := readPoint_val points w (kv w) (m w) (index w)
      ((L.flatMap fun w => rotationLines t.rows t.cols (kv w) (m w)) ++ rest) t hw.1 hw.2
    obtain ⟨e, he, h3, h4⟩ := ih { t with entry := e1 } (fun v hv => hL v (by simp [hv]))
      (fun v hv u hu => hinj v (by simp [hv]) u (by simp [hu]))
    refine ⟨e, ?_, ?_, ?_⟩
    · unfold foldOutcome
      rw [List.flatMap_cons, List.append_assoc, he1, Outcome.bind_eq, Outcome.bind_ok]
      exact he
    · intro v hv i j hi hj
      by_cases hvL : ∃ u ∈ L, index u = index v
      · obtain ⟨u, hu, huv⟩ := hvL
        have := hinj u (by simp [hu]) v hv huv
        subst this
        exact h3 u hu i j hi hj
      · rw [h4 i j _ (fun u hu hh => hvL ⟨u, hu, hh⟩)]
        rcases List.mem_cons.1 hv with rfl | hv'
        · exact h1 i j hi hj
        · exact absurd ⟨v, hv', rfl⟩ hvL
    · intro a b c hc
      rw [h4 a b c (fun u hu => hc u (by simp [hu]))]
      exact h2 a b c (fun hh => hc w (by simp) hh.symm)

theorem readHeader_val (title : List FileWord) (a b c : Int) (rest : TextStream) :
    readRotationHeader (title :: [.int a, .int b, .int c] :: rest) = .ok (a, b, c, [] :: rest) := rfl

/-- A complete file. -/
theorem readBody_val (points : Points) (rows cols : Nat) (ks : List (V3 Rat)) (m : Nat → Nat → Nat → Rat × Rat) (index : Nat → Nat)
    (h : ListsMesh points ks index) :
    ∃ t, readRotationBody points rows cols ks.length
        ([] :: ((List.range ks.length).flatMap fun w => rotationLines rows cols (ks.getD w ⟨0, 0, 0⟩) (m w))) = .ok t ∧
      t.rows = rows ∧ t.cols = cols ∧ t.depth = ks.length ∧
      ∀ w i j, w < ks.length → i < rows → j < cols → t.entry i j (index w) = complexOf (m w i j) := by
  obtain ⟨e, he, h1, -⟩ := readPoints_val points (fun w => ks.getD w ⟨0, 0, 0⟩) m index [] (List.range ks.length)
    ⟨rows, cols, ks.length, fun _ _ _ => 0⟩ (fun w hw => h.1 w (List.mem_range.1 hw))
    (fun v hv w hw => h.2 v w (List.mem_range.1 hv) (List.mem_range.1 hw))
  refine ⟨⟨rows, cols, ks.length, e⟩, ?_, rfl, rfl, rfl, fun w i j hw hi hj => h1 w (List.mem_range.2 hw) i j hi hj⟩
  unfold readRotationBody
  rw [if_neg (by omega)]
  simp only [Int.toNat_natCast]
  rw [List.append_nil] at he
  rw [he]
  rfl

theorem rotationTerm_val (dis uMat : RotTensor) (i j k : Nat) (hi : i < dis.rows) (hj : j < uMat.cols) (hk : k < dis.depth)
    (hk' : k < uMat.depth) (n : Nat) (hn : n ≤ dis.cols) (hn' : n ≤ uMat.rows) (acc : ℂ) :
    foldOutcome (rotationTerm dis uMat i j k) (List.range n) acc =
      .ok (acc + ∑ l ∈ Finset.range n, dis.entry i l k * uMat.entry l j k) := by
  have gen : ∀ (L : List Nat) (acc : ℂ), (∀ l ∈ L, l < n) → foldOutcome (rotationTerm dis uMat i j k) L acc =
      .ok (acc + (L.map fun l => dis.entry i l k * uMat.entry l j k).sum) := by
    intro L
    induction L with
    | nil => intro acc _; simp [foldOutcome]
    | cons l L ih =>
      intro acc hL
      have hl := hL l (by simp)
      have hone : rotationTerm dis uMat i j k l acc = .ok (acc + uMat.entry l j k * dis.entry i l k) := by
        unfold rotationTerm RotTensor.get
        rw [if_pos ⟨hi, by omega, hk⟩, Outcome.bind_eq, Outcome.bind_ok, if_pos ⟨by omega, hj, hk'⟩, Outcome.bind_eq, Outcome.bind_ok]
      unfold foldOutcome
      rw [hone, Outcome.bind_eq, Outcome.bind_ok]
      rw [ih _ (fun q hq => hL q (by simp [hq])), List.map_cons, List.sum_cons]
      congr 1
      ring
  rw [gen _ _ (fun l hl => List.mem_range.1 hl)]
  rfl

/-- The elements of the product. -/
theorem rotationTensorProduct_val (dis uMat : RotTensor) (hr : uMat.rows = dis.cols) (hc : uMat.cols = dis.cols) (hd : uMat.depth = dis.depth) :
    ∃ t, rotationTensorProduct dis uMat = .ok t ∧ t.rows = dis.rows ∧ t.cols = dis.cols ∧ t.depth = dis.depth ∧
      ∀ i j k, i < dis.rows → j < dis.cols → k < dis.depth →
        t.entry i j k = ∑ l ∈ Finset.range dis.cols, dis.entry i l k * uMat.entry l j k := by
  have gen : ∀ (L : List (Nat × Nat × Nat)) (t : RotTensor), t.rows = dis.rows → t.cols = dis.cols → t.depth = dis.depth →
      (∀ p ∈ L, p.1 < dis.rows ∧ p.2.1 < dis.cols ∧ p.2.2 < dis.depth) →
      ∃ t', foldOutcome (rotationElement dis uMat) L t = .ok t' ∧ t'.rows = dis.rows ∧ t'.cols = dis.cols ∧ t'.depth = dis.depth ∧
        ∀ i j k, ((i, j, k) ∈ L ∨ t.entry i j k = ∑ l ∈ Finset.range dis.cols, dis.entry i l k * uMat.entry l j k) →
          t'.entry i j k = ∑ l ∈ Finset.range dis.cols, dis.entry i l k * uMat.entry l j k := by
    intro L
    induction L with
    | nil =>
      intro t h1 h2 h3 _
      exact ⟨t, rfl, h1, h2, h3, fun i j k h => by simpa using h⟩
    | cons p L ih =>
      intro t h1 h2 h3 hL
      have hp := hL p (by simp)
      have hone : rotationElement dis uMat p t = .ok { t with entry := fun a b c => if a = p.1 ∧ b = p.2.1 ∧ (c : Int) = (p.2.2 : Int) then
          (0 + ∑ l ∈ Finset.range dis.cols, dis.entry p.1 l p.2.2 * uMat.entry l p.2.1 p.2.2) else t.entry a b c } := by
        unfold rotationElement
        rw [rotationTerm_val dis uMat p.1 p.2.1 p.2.2 hp.1 (by omega) hp.2.2 (by omega) dis.cols (le_refl _) (by omega),
          Outcome.bind_eq, Outcome.bind_ok]
        unfold RotTensor.set
        rw [if_pos ⟨by omega, by omega, by omega, by omega⟩]
      obtain ⟨t', ht', e1, e2, e3, hv⟩ := ih { t with entry := fun a b c => if a = p.1 ∧ b = p.2.1 ∧ (c : Int) = (p.2.2 : Int) then
          (0 + ∑ l ∈ Finset.range dis.cols, dis.entry p.1 l p.2.2 * uMat.entry l p.2.1 p.2.2) else t.entry a b c } h1 h2 h3
        (fun q hq => hL q (by simp [hq]))
      refine ⟨t', ?_, e1, e2, e3, ?_⟩
      · unfold foldOutcome
        rw [hone, Outcome.bind_eq, Outcome.bind_ok]
        exact ht'
      · intro i j k h
        apply hv
        by_cases hm : (i, j, k) ∈ L
        · exact .inl hm
        · right
          show (if i = p.1 ∧ j = p.2.1 ∧ (k : Int) = (p.2.2 : Int) then _ else _) = _
          split
          · rename_i he
            obtain ⟨rfl, rfl, he⟩ := he
            have he : k = p.2.2 := by omega
            subst he
            rw [zero_add]
          · rename_i he
            rcases h with h | h
            · rcases List.mem_cons.1 h with h | h
              · exact absurd (by rw [← h]; simp) he
              · exact absurd h hm
            · exact h
  obtain ⟨t, ht, h1, h2, h3, hv⟩ := gen ((List.range dis.depth).flatMap fun k => (List.range dis.rows).flatMap fun i =>
      (List.range dis.cols).map fun j => (i, j, k)) ⟨dis.rows, dis.cols, dis.depth, fun _ _ _ => 0⟩ rfl rfl rfl (by
    intro p hp
    simp only [List.mem_flatMap, List.mem_range, List.mem_map] at hp
    obtain ⟨k, hk, i, hi, j, hj, rfl⟩ := hp
    exact ⟨hi, hj, hk⟩)
  refine ⟨t, ht, h1, h2, h3, fun i j k hi hj hk => hv i j k (.inl ?_)⟩
  simp only [List.mem_flatMap, List.mem_range, List.mem_map]
  exact ⟨k, hk, i, hi, j, hj, rfl⟩

end Verif.Props
