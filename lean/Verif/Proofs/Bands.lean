import Verif.Model.Bands
import Verif.Proofs.IrrPoints
import Verif.Proofs.Matrix
import Mathlib.Tactic.Ring
import Mathlib.Tactic.Linarith

/-! Lemmas for the band structure properties. -/
namespace Verif.Model

theorem Outcome.bind_ok {α β : Type} (a : α) (f : α → Outcome β) : (Outcome.ok a).bind f = f a := rfl

/-! ## Cumulative offsets -/

/-- Offsets of consecutive blocks of lengths `len 0, len 1, ..`. -/
def offs (len : Nat → Nat) : Nat → Nat
  | 0 => 0
  | k + 1 => offs len k + len k

theorem offs_mono (len : Nat → Nat) {a b : Nat} (h : a ≤ b) : offs len a ≤ offs len b := by
  induction b with
  | zero => simp at h; subst h; rfl
  | succ b ih =>
    rcases Nat.lt_or_ge a (b + 1) with h1 | h1
    · exact le_trans (ih (by omega)) (by simp [offs])
    · have : a = b + 1 := by omega
      rw [this]

theorem offs_block_lt (len : Nat → Nat) {k n b : Nat} (hk : k < n) (hb : b < len k) : offs len k + b < offs len n := by
  have h := offs_mono len (show k + 1 ≤ n by omega)
  simp only [offs] at h
  omega

theorem offs_unique (len : Nat → Nat) {k k' b b' : Nat} (hb : b < len k) (hb' : b' < len k')
    (h : offs len k + b = offs len k' + b') : k = k' ∧ b = b' := by
  rcases Nat.lt_trichotomy k k' with hlt | heq | hgt
  · have := offs_block_lt len hlt hb; omega
  · subst heq; exact ⟨rfl, by omega⟩
  · have := offs_block_lt len hgt hb'; omega

theorem offs_exists (len : Nat → Nat) {n x : Nat} (hx : x < offs len n) :
    ∃ k b, k < n ∧ b < len k ∧ x = offs len k + b := by
  induction n with
  | zero => simp [offs] at hx
  | succ n ih =>
    by_cases h : x < offs len n
    · obtain ⟨k, b, h1, h2, h3⟩ := ih h
      exact ⟨k, b, by omega, h2, h3⟩
    · simp only [offs] at hx
      exact ⟨n, x - offs len n, by omega, by omega, by omega⟩

theorem foldl_offs (len : Nat → Nat) (n : Nat) :
    (List.range n).foldl (fun a k => a + len k) 0 = offs len n := by
  induction n with
  | zero => rfl
  | succ n ih => rw [List.range_succ, List.foldl_append, ih]; rfl

theorem flatMap_offs_length {α : Type} (f : Nat → List α) (n : Nat) :
    ((List.range n).flatMap f).length = offs (fun k => (f k).length) n := by
  induction n with
  | zero => rfl
  | succ n ih =>
    rw [List.range_succ, List.flatMap_append, List.length_append, ih]
    simp [offs]

theorem flatMap_offs_getElem? {α : Type} (f : Nat → List α) {n k b : Nat} (hk : k < n) (hb : b < (f k).length) :
    ((List.range n).flatMap f)[offs (fun k => (f k).length) k + b]? = (f k)[b]? := by
  induction n with
  | zero => omega
  | succ n ih =>
    rw [List.range_succ, List.flatMap_append]
    by_cases h : k < n
    · rw [List.getElem?_append_left]
      · exact ih h
      · rw [flatMap_offs_length]; exact offs_block_lt _ h hb
    · have : k = n := by omega
      subst this
      rw [List.getElem?_append_right (by rw [flatMap_offs_length]; omega), flatMap_offs_length]
      simp

theorem kbOffset_eq (B : ActiveLayout) (k : Nat) : B.kbOffset k = offs B.numBands k := by
  induction k with
  | zero => rfl
  | succ k ih => simp [ActiveLayout.kbOffset, offs, ih]

theorem kbbOffset_eq (B : ActiveLayout) (k : Nat) :
    B.kbbOffset k = offs (fun i => 3 * B.numBands i * B.numBands i) k := by
  induction k with
  | zero => rfl
  | succ k ih => simp [ActiveLayout.kbbOffset, offs, ih]

theorem kbOffset_mul_eq (B : ActiveLayout) (k : Nat) :
    B.kbOffset k * B.numFullBands = offs (fun i => B.numBands i * B.numFullBands) k := by
  induction k with
  | zero => simp [ActiveLayout.kbOffset, offs]
  | succ k ih => simp [ActiveLayout.kbOffset, offs, ← ih, Nat.add_mul]

theorem numStates_eq (B : ActiveLayout) : B.numStates = offs B.numBands B.numPoints := foldl_offs _ _

/-! ## Tables and buffers -/

theorem fillTable_spec {α : Type} (ps : List α) (is : Nat) (t : List α) (h : is + ps.length ≤ t.length) :
    fillTable ps is t = .ok (t.take is ++ ps ++ t.drop (is + ps.length)) := by
  induction ps generalizing is t with
  | nil => simp [fillTable]
  | cons p ps ih =>
    simp only [List.length_cons] at h
    unfold fillTable
    rw [if_pos (by omega), ih (is + 1) (t.set is p) (by simp; omega)]
    congr 1
    have h1 : (t.set is p).take (is + 1) = t.take is ++ [p] := by
      rw [List.take_succ, List.take_set, List.getElem?_set_self (by omega)]
      rw [List.set_eq_of_length_le (by simp)]
      rfl
    have h2 : (t.set is p).drop (is + 1 + ps.length) = t.drop (is + (ps.length + 1)) := by
      rw [List.drop_set_of_lt (by omega)]
      congr 1; omega
    rw [h1, h2]
    simp

theorem auxTable_eq (B : ActiveLayout) : B.auxTable =
    .ok ((List.range B.numPoints).flatMap fun ik => (List.range (B.numBands ik)).map fun ib => (ik, ib)) := by
  unfold ActiveLayout.auxTable
  have hl : ((List.range B.numPoints).flatMap fun ik => (List.range (B.numBands ik)).map fun ib => (ik, ib)).length
      = B.numStates := by
    rw [flatMap_offs_length, numStates_eq]; simp
  rw [fillTable_spec _ _ _ (by simp [hl])]
  rw [hl]
  simp

theorem comb2Bloch_val (B : ActiveLayout) {ik ib : Nat} (hk : ik < B.numPoints) (hb : ib < B.numBands ik) :
    B.comb2Bloch (B.bloch2Comb ik ib) = .ok (ik, ib) := by
  unfold ActiveLayout.comb2Bloch ActiveLayout.bloch2Comb
  rw [auxTable_eq]
  simp only [Outcome.bind_eq, Outcome.bind]
  have h := flatMap_offs_getElem? (fun ik => (List.range (B.numBands ik)).map fun ib => (ik, ib)) hk
    (b := ib) (by simpa using hb)
  simp only [List.length_map, List.length_range] at h
  rw [kbOffset_eq, h]
  simp [hb]

theorem writeAll_spec {α : Type} (ws : List (Nat × α)) (buf : List α) (hb : ∀ w ∈ ws, w.1 < buf.length)
    (hnd : (ws.map (·.1)).Nodup) :
    ∃ buf', writeAll ws buf = .ok buf' ∧ buf'.length = buf.length ∧ (∀ w ∈ ws, buf'[w.1]? = some w.2) ∧
      ∀ i : Nat, i ∉ ws.map (·.1) → buf'[i]? = buf[i]? := by
  induction ws generalizing buf with
  | nil => exact ⟨buf, rfl, rfl, by simp, by simp⟩
  | cons w ws ih =>
    rw [List.map_cons, List.nodup_cons] at hnd
    obtain ⟨buf', h1, h2, h3, h4⟩ := ih (buf.set w.1 w.2) (by
      intro x hx; rw [List.length_set]; exact hb x (by simp [hx])) hnd.2
    refine ⟨buf', ?_, by rw [h2, List.length_set], ?_, ?_⟩
    · unfold writeAll; rw [if_pos (hb w (by simp)), h1]
    · intro x hx
      rcases List.mem_cons.mp hx with rfl | hx
      · rw [h4 _ hnd.1, List.getElem?_set_self (hb x (by simp))]
      · exact h3 x hx
    · intro i hi
      rw [List.map_cons, List.mem_cons, not_or] at hi
      rw [h4 i hi.2, List.getElem?_set_ne (fun h => hi.1 h.symm)]

/-- A history of writes of whole points in a buffer with one region per point: reading any element returns
the value last written for its point, or the initial value. -/
theorem history {α ι : Type} (n : Nat) (locs : Nat → List ι) (idx : Nat → ι → Nat)
    (hnd : ∀ k, (locs k).Nodup)
    (hinj : ∀ k k' l l', k < n → k' < n → l ∈ locs k → l' ∈ locs k' → idx k l = idx k' l' → k = k' ∧ l = l')
    (ops : List (Nat × (ι → α))) (hops : ∀ o ∈ ops, o.1 < n) (buf : List α)
    (hb : ∀ k l, k < n → l ∈ locs k → idx k l < buf.length) :
    ∃ buf', foldOutcome (fun (o : Nat × (ι → α)) (b : List α) =>
        writeAll ((locs o.1).map fun l => (idx o.1 l, o.2 l)) b) ops buf = .ok buf' ∧ buf'.length = buf.length ∧
      ∀ k l, k < n → l ∈ locs k → readAt buf' (idx k l) =
        match ops.reverse.find? (fun o => o.1 = k) with
        | some o => .ok (o.2 l)
        | none => readAt buf (idx k l) := by
  induction ops generalizing buf with
  | nil => exact ⟨buf, rfl, rfl, by simp⟩
  | cons o t ih =>
    have ho := hops o (by simp)
    obtain ⟨b1, h1, h2, h3, h4⟩ := writeAll_spec ((locs o.1).map fun l => (idx o.1 l, o.2 l)) buf
      (by
        intro w hw
        obtain ⟨l, hl, rfl⟩ := List.mem_map.mp hw
        exact hb _ _ ho hl)
      (by
        rw [List.map_map]
        exact (hnd o.1).map_on (fun a ha b hb' h => (hinj _ _ _ _ ho ho ha hb' h).2))
    obtain ⟨b2, g1, g2, g3⟩ := ih (fun o' ho' => hops o' (by simp [ho'])) b1 (by rw [h2]; exact hb)
    refine ⟨b2, ?_, by omega, ?_⟩
    · unfold foldOutcome; rw [h1]; exact g1
    · intro k l hk hl
      rw [g3 k l hk hl, List.reverse_cons, List.find?_append]
      cases hf : t.reverse.find? (fun o => o.1 = k) with
      | some o' => rfl
      | none =>
        simp only [Option.none_or]
        by_cases hko : o.1 = k
        · subst hko
          rw [List.find?_cons_of_pos (by simp)]
          simp only
          unfold readAt
          rw [h3 (idx o.1 l, o.2 l) (List.mem_map.mpr ⟨l, hl, rfl⟩)]
        · rw [List.find?_cons_of_neg (by simpa using hko)]
          simp only [List.find?_nil]
          unfold readAt
          rw [h4]
          intro hm
          rw [List.map_map, List.mem_map] at hm
          obtain ⟨l', hl', he⟩ := hm
          exact hko (hinj _ _ _ _ ho hk hl' hl he).1

/-! ## BTE tables -/

theorem foldl_list_offs (f : Nat → Nat) (l : List Nat) :
    l.foldl (fun a ik => a + f ik) 0 = offs (fun k => f (l.getD k 0)) l.length := by
  rw [← foldl_offs]
  have : ∀ a, l.foldl (fun a ik => a + f ik) a =
      (List.range l.length).foldl (fun a k => a + f (l.getD k 0)) a := by
    induction l with
    | nil => intro a; rfl
    | cons x t ih =>
      intro a
      rw [List.foldl_cons, ih, List.length_cons, List.range_succ_eq_map, List.foldl_cons, List.foldl_map]
      rfl
  exact this 0

/-- Tables of `buildSymmetries` when the irreducible points are numbered in order. -/
theorem bteLoop_spec (nb : Nat → Nat) (asIrr : Nat → Outcome Nat) (irr : List Nat)
    (has : ∀ (k ik : Nat), irr[k]? = some ik → asIrr ik = .ok k) :
    bteLoop nb asIrr irr (List.replicate irr.length 0)
      (List.replicate (irr.foldl (fun a ik => a + nb ik) 0) (0, 0)) 0 0 =
    .ok ((List.range irr.length).map (offs (fun k => nb (irr.getD k 0))),
      (List.range irr.length).flatMap fun k => (List.range (nb (irr.getD k 0))).map fun ib => (k, ib)) := by
  set len : Nat → Nat := fun k => nb (irr.getD k 0) with hlen
  have hgen : ∀ (rest done : List Nat) (ikOld : Nat) (cum : List Nat) (aux : List (Nat × Nat)),
      irr = done ++ rest → cum.length = irr.length → aux.length = offs len irr.length →
      (0 < done.length → done.getLast? = some ikOld) →
      (∀ k : Nat, k < max 1 done.length → k < irr.length → cum[k]? = some (offs len k)) →
      aux.take (offs len done.length) = ((List.range done.length).flatMap fun k =>
        (List.range (len k)).map fun ib => (k, ib)) →
      bteLoop nb asIrr rest cum aux (offs len done.length) ikOld =
        .ok ((List.range irr.length).map (offs len),
          (List.range irr.length).flatMap fun k => (List.range (len k)).map fun ib => (k, ib)) := by
    intro rest
    induction rest with
    | nil =>
      intro done ikOld cum aux hd hc ha _ hcum haux
      have hdl : done.length = irr.length := by rw [hd]; simp
      unfold bteLoop
      congr 2
      · apply List.ext_getElem?
        intro k
        by_cases hk : k < irr.length
        · rw [hcum k (by omega) hk]; simp [hk]
        · rw [List.getElem?_eq_none (by omega), List.getElem?_eq_none (by simp; omega)]
      · rw [hdl] at haux
        rw [← haux, ← ha, List.take_length]
    | cons ik rest ih =>
      intro done ikOld cum aux hd hc ha hold hcum haux
      have hil : irr.length = done.length + (rest.length + 1) := by rw [hd]; simp
      have hik : irr[done.length]? = some ik := by rw [hd]; simp
      have hget : irr.getD done.length 0 = ik := by rw [List.getD_eq_getElem?_getD, hik]; rfl
      have hlenk : len done.length = nb ik := by simp only [hlen, hget]
      unfold bteLoop
      simp only [Outcome.bind_eq, has _ _ hik, Outcome.bind_ok]
      -- the cumulative table
      have hcum' : ∃ cum', (if done.length > 0 then
          (readAt cum (done.length - 1)).bind fun prev => writeAll [(done.length, prev + nb ikOld)] cum
          else .ok cum) = .ok cum' ∧ cum'.length = irr.length ∧
          ∀ k : Nat, k < max 1 (done.length + 1) → k < irr.length → cum'[k]? = some (offs len k) := by
        by_cases hd0 : done.length > 0
        · rw [if_pos hd0]
          have hp := hcum (done.length - 1) (by omega) (by omega)
          unfold readAt
          rw [hp]
          simp only [Outcome.bind_ok, writeAll]
          rw [if_pos (by omega)]
          refine ⟨_, rfl, by simp [hc], ?_⟩
          intro k hk hkl
          by_cases hkd : k = done.length
          · subst hkd
            rw [List.getElem?_set_self (by omega)]
            congr 1
            have hlast := hold hd0
            have : irr.getD (done.length - 1) 0 = ikOld := by
              rw [List.getD_eq_getElem?_getD, hd, List.getElem?_append_left (by omega)]
              rw [List.getLast?_eq_getElem?] at hlast
              rw [hlast]; rfl
            have e : offs len done.length = offs len (done.length - 1) + len (done.length - 1) := by
              conv_lhs => rw [show done.length = (done.length - 1) + 1 by omega]
              rfl
            rw [e]; simp only [hlen, this]
          · rw [List.getElem?_set_ne (by omega)]
            exact hcum k (by omega) hkl
        · rw [if_neg hd0]
          refine ⟨cum, rfl, hc, ?_⟩
          intro k hk hkl
          exact hcum k (by omega) hkl
      obtain ⟨cum', e1, e2, e3⟩ := hcum'
      rw [e1, Outcome.bind_ok]
      have hfit : offs len done.length + ((List.range (nb ik)).map fun ib => (done.length, ib)).length ≤ aux.length := by
        rw [ha]
        have := offs_mono len (show done.length + 1 ≤ irr.length by omega)
        simp only [offs, hlenk] at this
        simpa using this
      rw [fillTable_spec _ _ _ hfit, Outcome.bind_ok]
      have hne : offs len done.length + nb ik = offs len (done ++ [ik]).length := by
        simp [offs, hlenk]
      rw [hne]
      apply ih (done ++ [ik]) ik cum' _ (by rw [hd]; simp) e2
      · simp only [List.length_append, List.length_take, List.length_drop]
        simp only [List.length_map, List.length_range] at hfit
        simp; omega
      · intro _; simp
      · simpa using e3
      · rw [← hne]
        have hL : (aux.take (offs len done.length)).length = offs len done.length := by
          simp only [List.length_map, List.length_range] at hfit
          rw [List.length_take]; omega
        rw [List.take_left' (by simp only [List.length_append, hL, List.length_map, List.length_range])]
        rw [haux, List.length_append, List.length_singleton, List.range_succ, List.flatMap_append]
        simp [hlenk]
  have h0 := hgen irr [] 0 (List.replicate irr.length 0) (List.replicate (offs len irr.length) (0, 0)) rfl
    (by simp) (by simp) (by simp) (by
      intro k hk hkl
      have : k = 0 := by simp at hk; exact hk
      subst this
      rw [List.getElem?_replicate_of_lt hkl]; rfl) (by simp [offs])
  rw [foldl_list_offs]
  exact h0

theorem Outcome.bind_eq_ok_iff {β γ : Type} (o : Outcome β) (f : β → Outcome γ) (c : γ) :
    (o >>= f) = .ok c ↔ ∃ b, o = .ok b ∧ f b = .ok c := by
  cases o with
  | ok b =>
    constructor
    · intro h; exact ⟨b, rfl, h⟩
    · rintro ⟨b', hb, h⟩; cases hb; exact h
  | _ =>
    constructor
    · intro h; exact absurd h (by intro h; cases h)
    · rintro ⟨b', hb, _⟩; cases hb

theorem mapOutcome_getElem {β γ : Type} {f : β → Outcome γ} {l : List β} {r : List γ} (h : mapOutcome f l = .ok r) :
    r.length = l.length ∧ ∀ i (hi : i < l.length) (hi' : i < r.length), f l[i] = .ok r[i] := by
  induction l generalizing r with
  | nil => simp only [mapOutcome, Outcome.ok.injEq] at h; subst h; simp
  | cons a t ih =>
    simp only [mapOutcome, Outcome.bind_eq_ok_iff, Outcome.ok.injEq] at h
    obtain ⟨b, hb, bs, hbs, rfl⟩ := h
    obtain ⟨h1, h2⟩ := ih hbs
    refine ⟨by simp [h1], fun i hi hi' => ?_⟩
    cases i with
    | zero => exact hb
    | succ i => exact h2 i (by simpa using hi) (by simpa using hi')

end Verif.Model
