import Verif.Spec.Device
import Verif.Proofs.Bands
import Verif.Proofs.Utilities
import Mathlib.Tactic.Ring
import Mathlib.Tactic.Linarith
import Mathlib.Tactic.Positivity
import Mathlib.Tactic.FieldSimp
import Mathlib.Algebra.BigOperators.Group.Finset.Piecewise

/-! Lemmas for C61, C75, C82, C83. -/
namespace Verif.Model

theorem i32_eq_ok {x y : Int} (h : i32 x = .ok y) : y = x ∧ intMin ≤ x ∧ x ≤ intMax := by
  unfold i32 at h
  split at h
  · next hh => cases h; exact ⟨rfl, hh⟩
  · cases h

theorem cprod_eq_ok (first : Int) (l : List Int) (p : Int) (h : cprod first l = .ok p) : p = first * l.prod := by
  induction l generalizing first with
  | nil => cases h; simp
  | cons a t ih =>
    unfold cprod at h
    obtain ⟨q, hq, h2⟩ := (Outcome.bind_eq_ok_iff _ _ _).mp h
    obtain ⟨rfl, _⟩ := i32_eq_ok hq
    rw [ih _ h2, List.prod_cons, mul_assoc]

/-- The memory per wavevector, without overflow. -/
def perWavevector (n nr3 nb2 : Int) : Int :=
  16 * n * (3 * n) + max (16 * nr3 + 32 * n * n * n) (max (64 * n * n * n) (max (32 * n * n * n + 32 * n * nb2 * n)
    (max (32 * n * nb2 * n + 32 * n * nb2 * n) (64 * n * nb2 * n))))

theorem memoryPerWavevector_val (n nr3 nb2 p : Int) (h : memoryPerWavevector n nr3 nb2 = .ok p) :
    p = perWavevector n nr3 nb2 := by
  unfold memoryPerWavevector at h
  obtain ⟨a, ha, h⟩ := (Outcome.bind_eq_ok_iff _ _ _).mp h
  obtain ⟨b, hb, h⟩ := (Outcome.bind_eq_ok_iff _ _ _).mp h
  obtain ⟨c, hc, h⟩ := (Outcome.bind_eq_ok_iff _ _ _).mp h
  obtain ⟨d, hd, h⟩ := (Outcome.bind_eq_ok_iff _ _ _).mp h
  obtain ⟨e, he, h⟩ := (Outcome.bind_eq_ok_iff _ _ _).mp h
  obtain ⟨f, hf, h⟩ := (Outcome.bind_eq_ok_iff _ _ _).mp h
  obtain ⟨g, hg, h⟩ := (Outcome.bind_eq_ok_iff _ _ _).mp h
  obtain ⟨i, hi, h⟩ := (Outcome.bind_eq_ok_iff _ _ _).mp h
  obtain ⟨j, hj, h⟩ := (Outcome.bind_eq_ok_iff _ _ _).mp h
  obtain ⟨rfl, _⟩ := i32_eq_ok ha
  obtain ⟨rfl, _⟩ := i32_eq_ok hb
  have := cprod_eq_ok _ _ _ hc
  have := cprod_eq_ok _ _ _ hd
  have := cprod_eq_ok _ _ _ he
  have := cprod_eq_ok _ _ _ hf
  have := cprod_eq_ok _ _ _ hg
  have := cprod_eq_ok _ _ _ hi
  have := cprod_eq_ok _ _ _ hj
  subst c d e f g i j
  cases h
  unfold perWavevector
  simp only [List.prod_cons, List.prod_nil]
  congr 1
  · ring
  · congr 1
    · ring
    · congr 1
      · ring
      · congr 1
        · ring
        · congr 1 <;> ring

theorem perWavevector_pos (n nr3 nb2 : Int) (hn : 0 < n) (hr : 0 ≤ nr3) : 0 < perWavevector n nr3 nb2 := by
  unfold perWavevector
  have h1 : 0 < 16 * n * (3 * n) := by positivity
  have h2 : 0 < 64 * n * n * n := by positivity
  have h3 : 64 * n * n * n ≤ max (16 * nr3 + 32 * n * n * n) (max (64 * n * n * n) (max (32 * n * n * n + 32 * n * nb2 * n)
    (max (32 * n * nb2 * n + 32 * n * nb2 * n) (64 * n * nb2 * n)))) := le_max_of_le_right (le_max_left _ _)
  omega

/-! ## The loop of `splitToBatches` -/

theorem mapOutcome_slice {β : Type} (l : List β) (start len : Nat) (h : start + len ≤ l.length) :
    mapOutcome (fun j => readAt l (start + j)) (List.range len) = .ok ((l.drop start).take len) := by
  have key : ∀ (len start : Nat), start + len ≤ l.length → ∀ s : Nat,
      mapOutcome (fun j => readAt l (start + j)) (List.range' s len) = .ok ((l.drop (start + s)).take len) ∨
      l.length < start + s + len := by
    intro len
    induction len with
    | zero => intro start h s; left; simp [mapOutcome]
    | succ n ih =>
      intro start h s
      by_cases hlt : l.length < start + s + (n + 1)
      · right; exact hlt
      left
      rw [List.range'_succ]
      unfold mapOutcome
      have hs : start + s < l.length := by omega
      have hread : readAt l (start + s) = .ok l[start + s] := by
        unfold readAt; rw [List.getElem?_eq_getElem hs]
      simp only [Outcome.bind_eq]
      rw [hread, Outcome.bind_ok]
      rcases ih start (by omega) (s + 1) with h2 | h2
      · rw [h2, Outcome.bind_ok, List.drop_eq_getElem_cons hs, List.take_succ_cons]
        rfl
      · omega
  rcases key len start h 0 with h2 | h2
  · rw [List.range_eq_range']; simpa using h2
  · omega

/-- Piece number `k` of `l` with pieces of length `b`. -/
def piece {β : Type} (l : List β) (b k : Nat) : List β := (l.drop (k * b)).take b

theorem pieces_flatten {β : Type} (l : List β) (b N : Nat) :
    ((List.range N).map (piece l b)).flatten = l.take (N * b) := by
  induction N with
  | zero => simp
  | succ n ih =>
    rw [List.range_succ, List.map_append, List.flatten_append, ih]
    simp only [List.map_cons, List.map_nil, List.flatten_cons, List.flatten_nil, List.append_nil]
    rw [Nat.succ_mul, List.take_add]
    rfl

theorem splitLoop_val {β : Type} (l : List β) (b N : Nat) (hb : 0 < b) (hbig : l.length ≤ 1073741823)
    (hN : (N - 1) * b < l.length) (hN2 : l.length ≤ N * b) (hbn : b ≤ l.length) :
    ∀ (fuel i : Nat) (R : List (List β)), i ≤ N → N - i < fuel → R.length = N →
      (∀ k, k < i → R[k]? = some (piece l b k)) →
      splitLoop l (b : Int) fuel ((i * b : Nat) : Int) (min (((i + 1) * b : Nat) : Int) l.length) i R =
        .ok ((List.range N).map (piece l b)) := by
  have hlt : ∀ k, k < N ↔ k * b < l.length := by
    intro k
    constructor
    · intro h
      exact lt_of_le_of_lt (Nat.mul_le_mul_right b (by omega)) hN
    · intro h
      by_contra hk
      have := Nat.mul_le_mul_right b (not_lt.mp hk)
      omega
  intro fuel
  induction fuel with
  | zero => intro i R h1 h2; omega
  | succ f ih =>
    intro i R hi hf hR hk
    unfold splitLoop
    have e1 : (i + 1) * b = i * b + b := Nat.succ_mul i b
    by_cases hcase : i < N
    · have hib := (hlt i).mp hcase
      have hcond : ((i * b : Nat) : Int) < min (((i + 1) * b : Nat) : Int) l.length := by
        rw [lt_min_iff, e1]; constructor <;> · push_cast; omega
      rw [if_pos hcond]
      have hlen : (min (((i + 1) * b : Nat) : Int) l.length - ((i * b : Nat) : Int)).toNat =
          min ((i + 1) * b) l.length - i * b := by
        rw [e1]
        omega
      have htn : ((i * b : Nat) : Int).toNat = i * b := by omega
      rw [hlen, htn]
      have hsl := mapOutcome_slice l (i * b) (min ((i + 1) * b) l.length - i * b) (by rw [e1]; omega)
      simp only [Outcome.bind_eq]
      rw [hsl, Outcome.bind_ok, if_pos (by omega), Outcome.bind_ok]
      have hc1 : cadd ((i * b : Nat) : Int) (b : Int) = .ok (((i + 1) * b : Nat) : Int) := by
        rw [cadd_ok]
        · rw [e1]; push_cast; rfl
        · unfold intMin; omega
        · unfold intMax; omega
      rw [hc1, Outcome.bind_ok]
      have hc2 : ∃ z, cadd (min (((i + 1) * b : Nat) : Int) l.length) (b : Int) = .ok z ∧
          min z (l.length : Int) = min (((i + 1 + 1) * b : Nat) : Int) l.length := by
        refine ⟨min (((i + 1) * b : Nat) : Int) l.length + b, ?_, ?_⟩
        · rw [cadd_ok]
          · unfold intMin; omega
          · unfold intMax; omega
        · have e2 : (i + 1 + 1) * b = (i + 1) * b + b := Nat.succ_mul _ _
          rw [e2]; push_cast; omega
      obtain ⟨z, hz, hz2⟩ := hc2
      rw [hz, Outcome.bind_ok, hz2]
      refine ih (i + 1) _ (by omega) (by omega) (by simpa using hR) ?_
      intro k hk2
      have hpiece : (l.drop (i * b)).take (min ((i + 1) * b) l.length - i * b) = piece l b i := by
        unfold piece
        rw [List.take_eq_take_iff, List.length_drop, e1]
        omega
      rw [hpiece]
      by_cases hki : k = i
      · subst hki
        rw [List.getElem?_set_self (by omega)]
      · rw [List.getElem?_set_ne (by omega)]
        exact hk k (by omega)
    · have hiN : i = N := by omega
      have hcond : ¬ ((i * b : Nat) : Int) < min (((i + 1) * b : Nat) : Int) l.length := by
        rw [lt_min_iff, hiN]; push_cast; intro h
        have := h.2
        have h3 : (l.length : Int) ≤ (N : Int) * b := by exact_mod_cast hN2
        omega
      rw [if_neg hcond]
      congr 1
      apply List.ext_getElem?
      intro k
      by_cases hkN : k < N
      · rw [hk k (by omega)]
        simp [hkN]
      · rw [List.getElem?_eq_none (by omega), List.getElem?_eq_none (by simp; omega)]

/-! ## Registered memory -/

/-- The invariant of safe histories. -/
structure DevInv (s : DevState) : Prop where
  used : s.used = s.liveBytes
  bound : ∀ (h : Nat) (o : DevObj), s.objs[h]? = some (some o) → o.main < s.sizes.length ∧ o.cache < s.sizes.length ∧ o.main ≠ o.cache
  share : ∀ (h h' : Nat) (o o' : DevObj), h ≠ h' → s.objs[h]? = some (some o) → s.objs[h']? = some (some o') →
    (o = o' ∧ o.kind = .elph) ∨
    (o.main ≠ o'.main ∧ o.main ≠ o'.cache ∧ o.cache ≠ o'.main ∧ o.cache ≠ o'.cache)

theorem devInv_init : DevInv DevState.init := by
  refine ⟨?_, ?_, ?_⟩
  · simp [DevState.init, DevState.liveBytes]
  · intro h o ho; simp [DevState.init] at ho
  · intro h h' o o' _ ho; simp [DevState.init] at ho

theorem getD_none_some {l : List (Option DevObj)} {h : Nat} {o : DevObj} (e : l.getD h none = some o) :
    l[h]? = some (some o) := by
  rw [List.getD_eq_getElem?_getD] at e
  cases hh : l[h]? with
  | none => rw [hh] at e; simp at e
  | some x => rw [hh] at e; simp at e; rw [e]

/-- Adding up after a change at two places. -/
theorem liveBytes_change (s s' : DevState) (a b : Nat) (ha : a < s.sizes.length) (hb : b < s.sizes.length)
    (hab : a ≠ b) (hs : s'.sizes = s.sizes) (hla : s.live a) (hlb : s.live b) (hna : ¬ s'.live a) (hnb : ¬ s'.live b)
    (hother : ∀ i, i ≠ a → i ≠ b → (s'.live i ↔ s.live i)) :
    s'.liveBytes = s.liveBytes - (s.sizes.getD a 0 + s.sizes.getD b 0) := by
  classical
  unfold DevState.liveBytes
  rw [hs]
  have hpt : ∀ i ∈ Finset.range s.sizes.length, (if s.live i then (s.sizes.getD i 0 : Int) else 0) =
      (if s'.live i then (s.sizes.getD i 0 : Int) else 0) +
      ((if i = a then (s.sizes.getD a 0 : Int) else 0) + if i = b then (s.sizes.getD b 0 : Int) else 0) := by
    intro i _
    by_cases h1 : i = a
    · subst h1; simp [hla, hna, hab]
    · by_cases h2 : i = b
      · subst h2; simp [hlb, hnb, Ne.symm hab]
      · simp [h1, h2, hother i h1 h2]
  rw [Finset.sum_congr rfl hpt, Finset.sum_add_distrib, Finset.sum_add_distrib, Finset.sum_ite_eq', Finset.sum_ite_eq',
    if_pos (Finset.mem_range.mpr ha), if_pos (Finset.mem_range.mpr hb)]
  ring

theorem getD_append_left {l r : List Nat} {i : Nat} (h : i < l.length) : (l ++ r).getD i 0 = l.getD i 0 := by
  simp [List.getD_eq_getElem?_getD, List.getElem?_append_left h]

/-- Adding up after new allocations. -/
theorem liveBytes_extend (s s' : DevState) (extra : List Nat) (hs : s'.sizes = s.sizes ++ extra)
    (hother : ∀ i, i < s.sizes.length → (s'.live i ↔ s.live i))
    (hnew : ∀ i, i < extra.length → extra.getD i 0 ≠ 0 → s'.live (s.sizes.length + i)) :
    s'.liveBytes = s.liveBytes + extra.sum := by
  classical
  unfold DevState.liveBytes
  rw [hs, List.length_append, Finset.sum_range_add]
  congr 1
  · apply Finset.sum_congr rfl
    intro i hi
    rw [Finset.mem_range] at hi
    rw [getD_append_left hi]
    simp only [hother i hi]
  · have : ∀ i ∈ Finset.range extra.length, (if s'.live (s.sizes.length + i) then
        ((s.sizes ++ extra).getD (s.sizes.length + i) 0 : Int) else 0) = ((extra.getD i 0 : Nat) : Int) := by
      intro i hi
      rw [Finset.mem_range] at hi
      have e : (s.sizes ++ extra).getD (s.sizes.length + i) 0 = extra.getD i 0 := by
        rw [List.getD_eq_getElem?_getD, List.getElem?_append_right (by omega), List.getD_eq_getElem?_getD]
        congr 2; omega
      rw [e]
      by_cases h0 : extra.getD i 0 = 0
      · rw [h0]; simp
      · rw [if_pos (hnew i hi h0)]
    rw [Finset.sum_congr rfl this]
    clear this hnew hs
    induction extra using List.reverseRecOn with
    | nil => simp
    | append_singleton t x ih =>
      rw [List.length_append, List.length_singleton, Finset.sum_range_succ]
      have : ∀ i ∈ Finset.range t.length, (((t ++ [x]).getD i 0 : Nat) : Int) = ((t.getD i 0 : Nat) : Int) := by
        intro i hi
        rw [Finset.mem_range] at hi
        rw [getD_append_left hi]
      rw [Finset.sum_congr rfl this, ih]
      simp [List.getD_eq_getElem?_getD]

/-- Adding up does not change when no liveness changes. -/
theorem liveBytes_same (s s' : DevState) (hs : s'.sizes = s.sizes) (h : ∀ i, s'.live i ↔ s.live i) :
    s'.liveBytes = s.liveBytes := by
  classical
  unfold DevState.liveBytes
  rw [hs]
  apply Finset.sum_congr rfl
  intro i _
  simp only [h i]

theorem live_iff_of_objs {s s' : DevState} (h : s'.objs = s.objs) (i : Nat) : s'.live i ↔ s.live i := by
  unfold DevState.live; rw [h]

theorem getElem?_append_one {β : Type} (l : List β) (x y : β) (h : Nat) :
    (l ++ [x])[h]? = some y ↔ l[h]? = some y ∨ (h = l.length ∧ x = y) := by
  by_cases hl : h < l.length
  · rw [List.getElem?_append_left hl]
    constructor
    · exact Or.inl
    · rintro (h1 | ⟨h1, _⟩)
      · exact h1
      · omega
  · by_cases he : h = l.length
    · subst he; simp
    · rw [List.getElem?_eq_none (by simp; omega), List.getElem?_eq_none (by omega)]; simp [he]

theorem getElem?_set_iff {β : Type} (l : List β) (x y : β) (k h : Nat) (hk : k < l.length) :
    (l.set k x)[h]? = some y ↔ (h ≠ k ∧ l[h]? = some y) ∨ (h = k ∧ x = y) := by
  by_cases he : h = k
  · subst he; rw [List.getElem?_set_self hk]; simp
  · rw [List.getElem?_set_ne (Ne.symm he)]; simp [he]

/-- A new object with fresh arrays. -/
theorem devInv_construct (s : DevState) (inv : DevInv s) (k : DevKind) (bytes : Nat) :
    DevInv { sizes := s.sizes ++ [bytes, 0], objs := s.objs ++ [some ⟨k, s.sizes.length, s.sizes.length + 1⟩],
             used := s.used + bytes } := by
  have hold : ∀ h o, (s.objs ++ [some (⟨k, s.sizes.length, s.sizes.length + 1⟩ : DevObj)])[h]? = some (some o) ↔
      s.objs[h]? = some (some o) ∨ (h = s.objs.length ∧ ⟨k, s.sizes.length, s.sizes.length + 1⟩ = o) := by
    intro h o
    rw [getElem?_append_one]
    simp
  refine ⟨?_, ?_, ?_⟩
  · show s.used + bytes = _
    rw [liveBytes_extend s _ [bytes, 0] rfl ?_ ?_, inv.used]
    · simp
    · intro i hi
      unfold DevState.live
      simp only [hold]
      constructor
      · rintro ⟨h, o, h1 | ⟨_, rfl⟩, h2⟩
        · exact ⟨h, o, h1, h2⟩
        · simp only at h2; omega
      · rintro ⟨h, o, h1, h2⟩
        exact ⟨h, o, Or.inl h1, h2⟩
    · intro i hi hne
      simp only [List.length_cons, List.length_nil] at hi
      refine ⟨s.objs.length, ⟨k, s.sizes.length, s.sizes.length + 1⟩, (hold _ _).mpr (Or.inr ⟨rfl, rfl⟩), ?_⟩
      show s.sizes.length = _ ∨ s.sizes.length + 1 = _
      omega
  · intro h o ho
    simp only [hold] at ho
    simp only [List.length_append, List.length_cons, List.length_nil]
    rcases ho with ho | ⟨_, rfl⟩
    · have := inv.bound h o ho; omega
    · exact ⟨by simp, by simp, by simp⟩
  · intro h h' o o' hne ho ho'
    simp only [hold] at ho ho'
    rcases ho with ho | ⟨e, rfl⟩ <;> rcases ho' with ho' | ⟨e', rfl⟩
    · exact inv.share h h' o o' hne ho ho'
    · right
      have := inv.bound h o ho
      show o.main ≠ s.sizes.length ∧ o.main ≠ s.sizes.length + 1 ∧ o.cache ≠ s.sizes.length ∧ o.cache ≠ s.sizes.length + 1
      omega
    · right
      have := inv.bound h' o' ho'
      show s.sizes.length ≠ o'.main ∧ s.sizes.length ≠ o'.cache ∧ s.sizes.length + 1 ≠ o'.main ∧ s.sizes.length + 1 ≠ o'.cache
      omega
    · omega

/-- A second reference to the arrays of an interaction. -/
theorem devInv_copy_elph (s : DevState) (inv : DevInv s) (h0 : Nat) (o0 : DevObj) (ho0 : s.objs[h0]? = some (some o0))
    (hk : o0.kind = .elph) : DevInv { s with objs := s.objs ++ [some o0] } := by
  have hold : ∀ (h : Nat) (o : DevObj), (s.objs ++ [some o0])[h]? = some (some o) ↔
      s.objs[h]? = some (some o) ∨ (h = s.objs.length ∧ o0 = o) := by
    intro h o
    rw [getElem?_append_one]
    simp
  have hsh : ∀ (h : Nat) (o : DevObj), s.objs[h]? = some (some o) → (o = o0 ∧ o.kind = .elph) ∨
      (o.main ≠ o0.main ∧ o.main ≠ o0.cache ∧ o.cache ≠ o0.main ∧ o.cache ≠ o0.cache) := by
    intro h o ho
    by_cases he : h = h0
    · subst he; rw [ho0] at ho
      simp only [Option.some.injEq] at ho
      exact Or.inl ⟨ho.symm, ho ▸ hk⟩
    · exact inv.share h h0 o o0 he ho ho0
  refine ⟨?_, ?_, ?_⟩
  · show s.used = _
    rw [inv.used]
    refine (liveBytes_same s { s with objs := s.objs ++ [some o0], used := s.liveBytes } rfl ?_).symm
    intro i
    unfold DevState.live
    simp only [hold]
    constructor
    · rintro ⟨h, o, h1 | ⟨_, rfl⟩, h2⟩
      · exact ⟨h, o, h1, h2⟩
      · exact ⟨h0, o0, ho0, h2⟩
    · rintro ⟨h, o, h1, h2⟩
      exact ⟨h, o, Or.inl h1, h2⟩
  · intro h o ho
    simp only [hold] at ho
    rcases ho with ho | ⟨_, rfl⟩
    · exact inv.bound h o ho
    · exact inv.bound h0 o0 ho0
  · intro h h' o o' hne ho ho'
    simp only [hold] at ho ho'
    rcases ho with ho | ⟨e, rfl⟩ <;> rcases ho' with ho' | ⟨e', rfl⟩
    · exact inv.share h h' o o' hne ho ho'
    · exact hsh h o ho
    · rcases hsh h' o' ho' with ⟨h1, h2⟩ | h1
      · left; exact ⟨h1.symm, hk⟩
      · right; omega
    · omega

/-- Removing an object. -/
theorem devInv_remove (s : DevState) (inv : DevInv s) (h0 : Nat) (o0 : DevObj) (ho0 : s.objs[h0]? = some (some o0))
    (used : Int)
    (hun : (∀ (h : Nat) (o : DevObj), h ≠ h0 → s.objs[h]? = some (some o) → o ≠ o0) → used = s.used - s.usage o0)
    (hsh : (∃ (h : Nat), h ≠ h0 ∧ s.objs[h]? = some (some o0)) → used = s.used) :
    DevInv { s with objs := s.objs.set h0 none, used := used } := by
  have hl0 : h0 < s.objs.length := by
    by_contra hc
    rw [List.getElem?_eq_none (by omega)] at ho0
    cases ho0
  have hold : ∀ (h : Nat) (o : DevObj), (s.objs.set h0 none)[h]? = some (some o) ↔ h ≠ h0 ∧ s.objs[h]? = some (some o) := by
    intro h o
    rw [getElem?_set_iff _ _ _ _ _ hl0]
    simp
  refine ⟨?_, ?_, ?_⟩
  · show used = _
    by_cases hs : ∃ (h : Nat), h ≠ h0 ∧ s.objs[h]? = some (some o0)
    · rw [hsh hs, inv.used]
      refine (liveBytes_same s { s with objs := s.objs.set h0 none, used := s.liveBytes } rfl ?_).symm
      intro i
      unfold DevState.live
      simp only [hold]
      constructor
      · rintro ⟨h, o, ⟨_, h1⟩, h2⟩; exact ⟨h, o, h1, h2⟩
      · rintro ⟨h, o, h1, h2⟩
        by_cases he : h = h0
        · subst he
          rw [ho0] at h1
          simp only [Option.some.injEq] at h1
          subst h1
          obtain ⟨h', hne, hh'⟩ := hs
          exact ⟨h', o0, ⟨hne, hh'⟩, h2⟩
        · exact ⟨h, o, ⟨he, h1⟩, h2⟩
    · have hun' : ∀ (h : Nat) (o : DevObj), h ≠ h0 → s.objs[h]? = some (some o) → o ≠ o0 := by
        intro h o hne ho he
        subst he
        exact hs ⟨h, hne, ho⟩
      have hdis : ∀ (h : Nat) (o : DevObj), h ≠ h0 → s.objs[h]? = some (some o) →
          o.main ≠ o0.main ∧ o.main ≠ o0.cache ∧ o.cache ≠ o0.main ∧ o.cache ≠ o0.cache := by
        intro h o hne ho
        rcases inv.share h h0 o o0 hne ho ho0 with ⟨h1, _⟩ | h1
        · exact absurd h1 (hun' h o hne ho)
        · exact h1
      obtain ⟨b1, b2, b3⟩ := inv.bound h0 o0 ho0
      rw [hun hun', inv.used]
      symm
      refine liveBytes_change s _ o0.main o0.cache b1 b2 b3 rfl ⟨h0, o0, ho0, Or.inl rfl⟩ ⟨h0, o0, ho0, Or.inr rfl⟩ ?_ ?_ ?_
      · rintro ⟨h, o, h1, h2⟩
        rw [hold] at h1
        have := hdis h o h1.1 h1.2
        rcases h2 with h2 | h2 <;> omega
      · rintro ⟨h, o, h1, h2⟩
        rw [hold] at h1
        have := hdis h o h1.1 h1.2
        rcases h2 with h2 | h2 <;> omega
      · intro i hi1 hi2
        unfold DevState.live
        simp only [hold]
        constructor
        · rintro ⟨h, o, ⟨_, h1⟩, h2⟩; exact ⟨h, o, h1, h2⟩
        · rintro ⟨h, o, h1, h2⟩
          refine ⟨h, o, ⟨?_, h1⟩, h2⟩
          rintro rfl
          rw [ho0] at h1
          simp only [Option.some.injEq] at h1
          subst h1
          rcases h2 with h2 | h2
          · exact hi1 h2.symm
          · exact hi2 h2.symm
  · intro h o ho
    exact inv.bound h o ((hold h o).mp ho).2
  · intro h h' o o' hne ho ho'
    exact inv.share h h' o o' hne ((hold h o).mp ho).2 ((hold h' o').mp ho').2

theorem useCount_shared (s : DevState) (h0 h1 : Nat) (o : DevObj) (hne : h1 ≠ h0) (ho0 : s.objs[h0]? = some (some o))
    (ho1 : s.objs[h1]? = some (some o)) : s.useCount o.main ≠ 1 := by
  unfold DevState.useCount
  intro h
  rw [List.length_eq_one_iff] at h
  obtain ⟨x, hx⟩ := h
  have key : ∀ (l : List (Option DevObj)) (i j : Nat), i < j → l[i]? = some (some o) → l[j]? = some (some o) →
      2 ≤ (l.filter fun p => match p with
        | some p => p.main == o.main
        | none => false).length := by
    intro l
    induction l with
    | nil => intro i j _ h; simp at h
    | cons a t ih =>
      intro i j hij hi hj
      cases j with
      | zero => omega
      | succ j =>
        simp only [List.getElem?_cons_succ] at hj
        cases i with
        | zero =>
          simp only [List.getElem?_cons_zero, Option.some.injEq] at hi
          subst hi
          rw [List.filter_cons_of_pos (by simp)]
          have hmem : (some o) ∈ t.filter fun p => match p with
            | some p => p.main == o.main
            | none => false := by
            rw [List.mem_filter]
            exact ⟨List.mem_of_getElem? hj, by simp⟩
          have := List.length_pos_of_mem hmem
          simp only [List.length_cons]; omega
        | succ i =>
          simp only [List.getElem?_cons_succ] at hi
          have := ih i j (by omega) hi hj
          exact le_trans this (((List.sublist_cons_self a t).filter _).length_le)
  have h2 : 2 ≤ [x].length := by
    rw [← hx]
    rcases lt_or_gt_of_ne hne with hlt | hlt
    · exact key s.objs h1 h0 hlt ho1 ho0
    · exact key s.objs h0 h1 hlt ho0 ho1
  simp at h2

theorem useCount_alone (s : DevState) (h0 : Nat) (o : DevObj) (ho0 : s.objs[h0]? = some (some o))
    (hal : ∀ (h : Nat) (o' : DevObj), h ≠ h0 → s.objs[h]? = some (some o') → o'.main ≠ o.main) :
    s.useCount o.main = 1 := by
  unfold DevState.useCount
  have key : ∀ (l : List (Option DevObj)) (i : Nat), l[i]? = some (some o) →
      (∀ (h : Nat) (o' : DevObj), h ≠ i → l[h]? = some (some o') → o'.main ≠ o.main) →
      (l.filter fun p => match p with
        | some p => p.main == o.main
        | none => false).length = 1 := by
    intro l
    induction l with
    | nil => intro i h; simp at h
    | cons a t ih =>
      intro i hi hal
      cases i with
      | zero =>
        simp only [List.getElem?_cons_zero, Option.some.injEq] at hi
        subst hi
        rw [List.filter_cons_of_pos (by simp)]
        have : (t.filter fun p => match p with
          | some p => p.main == o.main
          | none => false) = [] := by
          rw [List.filter_eq_nil_iff]
          intro p hp
          cases p with
          | none => simp
          | some p =>
            obtain ⟨k, hk⟩ := List.getElem?_of_mem hp
            have := hal (k + 1) p (by omega) (by simpa using hk)
            simpa using this
        rw [this]; rfl
      | succ i =>
        simp only [List.getElem?_cons_succ] at hi
        have h1 := ih i hi (fun h o' hne ho' => hal (h + 1) o' (by omega) (by simpa using ho'))
        rw [List.filter_cons_of_neg]
        · exact h1
        · cases a with
          | none => simp
          | some a =>
            have := hal 0 a (by omega) (by simp)
            simpa using this
  exact key s.objs h0 ho0 hal

/-- The state after `update`. -/
def DevState.updated (s : DevState) (h0 : Nat) (o0 : DevObj) (bytes : Nat) : DevState :=
  { sizes := s.sizes ++ [bytes], objs := s.objs.set h0 (some { o0 with cache := s.sizes.length }),
    used := s.used - s.usage o0 + (s.sizes.getD o0.main 0 + bytes) }

/-- Replacing the second group of arrays of an object that is not shared. -/
theorem devInv_update (s : DevState) (inv : DevInv s) (h0 : Nat) (o0 : DevObj) (ho0 : s.objs[h0]? = some (some o0))
    (bytes : Nat) (hal : ∀ (h : Nat) (o : DevObj), h ≠ h0 → s.objs[h]? = some (some o) → o.main ≠ o0.main) :
    DevInv (s.updated h0 o0 bytes) := by
  have hl0 : h0 < s.objs.length := by
    by_contra hc
    rw [List.getElem?_eq_none (by omega)] at ho0
    cases ho0
  have hdis : ∀ (h : Nat) (o : DevObj), h ≠ h0 → s.objs[h]? = some (some o) →
      o.main ≠ o0.main ∧ o.main ≠ o0.cache ∧ o.cache ≠ o0.main ∧ o.cache ≠ o0.cache := by
    intro h o hne ho
    rcases inv.share h h0 o o0 hne ho ho0 with ⟨h1, _⟩ | h1
    · exact absurd (congrArg DevObj.main h1) (hal h o hne ho)
    · exact h1
  have hold : ∀ (h : Nat) (o : DevObj), (s.updated h0 o0 bytes).objs[h]? = some (some o) ↔
      (h ≠ h0 ∧ s.objs[h]? = some (some o)) ∨ (h = h0 ∧ ({ o0 with cache := s.sizes.length } : DevObj) = o) := by
    intro h o
    show (s.objs.set h0 (some ({ o0 with cache := s.sizes.length } : DevObj)))[h]? = _ ↔ _
    rw [getElem?_set_iff _ _ _ _ _ hl0]
    simp
  obtain ⟨b1, b2, b3⟩ := inv.bound h0 o0 ho0
  -- in two steps: the object without its second group, then with the new one
  classical
  have hsum : DevState.liveBytes (s.updated h0 o0 bytes) =
      s.liveBytes - s.sizes.getD o0.cache 0 + bytes := by
    unfold DevState.liveBytes
    have hsz : (s.updated h0 o0 bytes).sizes = s.sizes ++ [bytes] := rfl
    rw [hsz]
    simp only [List.length_append, List.length_singleton]
    rw [Finset.sum_range_succ]
    have hlast : DevState.live (s.updated h0 o0 bytes) s.sizes.length :=
      ⟨h0, _, (hold h0 _).mpr (Or.inr ⟨rfl, rfl⟩), Or.inr rfl⟩
    rw [if_pos hlast]
    have hval : (s.sizes ++ [bytes]).getD s.sizes.length 0 = bytes := by
      simp [List.getD_eq_getElem?_getD]
    rw [hval]
    congr 1
    have hpt : ∀ i ∈ Finset.range s.sizes.length, (if s.live i then (s.sizes.getD i 0 : Int) else 0) =
        (if DevState.live (s.updated h0 o0 bytes) i
          then (((s.sizes ++ [bytes]).getD i 0 : Nat) : Int) else 0) +
        (if i = o0.cache then (s.sizes.getD o0.cache 0 : Int) else 0) := by
      intro i hi
      rw [Finset.mem_range] at hi
      rw [getD_append_left hi]
      by_cases hc : i = o0.cache
      · subst hc
        rw [if_pos ⟨h0, o0, ho0, Or.inr rfl⟩, if_neg, if_pos rfl, zero_add]
        rintro ⟨h, o, h1, h2⟩
        rw [hold] at h1
        rcases h1 with ⟨hne, h1⟩ | ⟨_, rfl⟩
        · have := hdis h o hne h1
          rcases h2 with h2 | h2 <;> omega
        · simp only at h2
          rcases h2 with h2 | h2
          · exact b3 h2
          · omega
      · rw [if_neg hc, add_zero]
        have : s.live i ↔ DevState.live (s.updated h0 o0 bytes) i := by
          unfold DevState.live
          simp only [hold]
          constructor
          · rintro ⟨h, o, h1, h2⟩
            by_cases he : h = h0
            · subst he
              rw [ho0] at h1
              simp only [Option.some.injEq] at h1
              subst h1
              refine ⟨h, _, Or.inr ⟨rfl, rfl⟩, ?_⟩
              rcases h2 with h2 | h2
              · left; exact h2
              · exact absurd h2.symm hc
            · exact ⟨h, o, Or.inl ⟨he, h1⟩, h2⟩
          · rintro ⟨h, o, ⟨hne, h1⟩ | ⟨rfl, rfl⟩, h2⟩
            · exact ⟨h, o, h1, h2⟩
            · simp only at h2
              rcases h2 with h2 | h2
              · exact ⟨h, o0, ho0, Or.inl h2⟩
              · omega
        simp only [this]
    rw [Finset.sum_congr rfl hpt, Finset.sum_add_distrib, Finset.sum_ite_eq', if_pos (Finset.mem_range.mpr b2)]
    ring
  refine ⟨?_, ?_, ?_⟩
  · rw [hsum]
    show s.used - s.usage o0 + (s.sizes.getD o0.main 0 + bytes) = _
    rw [inv.used]
    unfold DevState.usage
    ring
  · intro h o ho
    have ho := (hold h o).mp ho
    show o.main < (s.sizes ++ [bytes]).length ∧ o.cache < (s.sizes ++ [bytes]).length ∧ o.main ≠ o.cache
    simp only [List.length_append, List.length_singleton]
    rcases ho with ⟨_, ho⟩ | ⟨_, rfl⟩
    · have := inv.bound h o ho; omega
    · show o0.main < _ ∧ s.sizes.length < _ ∧ o0.main ≠ s.sizes.length
      omega
  · intro h h' o o' hne ho ho'
    have ho := (hold h o).mp ho
    have ho' := (hold h' o').mp ho'
    rcases ho with ⟨e, ho⟩ | ⟨e, rfl⟩ <;> rcases ho' with ⟨e', ho'⟩ | ⟨e', rfl⟩
    · exact inv.share h h' o o' hne ho ho'
    · right
      have h1 := hdis h o e ho
      have h2 := inv.bound h o ho
      show o.main ≠ o0.main ∧ o.main ≠ s.sizes.length ∧ o.cache ≠ o0.main ∧ o.cache ≠ s.sizes.length
      omega
    · right
      have h1 := hdis h' o' e' ho'
      have h2 := inv.bound h' o' ho'
      show o0.main ≠ o'.main ∧ o0.main ≠ o'.cache ∧ s.sizes.length ≠ o'.main ∧ s.sizes.length ≠ o'.cache
      omega
    · omega

theorem devInv_step (s : DevState) (inv : DevInv s) (op : DevOp) (hs : SafeOp s op) : DevInv (devStep s op) := by
  cases op with
  | construct k bytes => exact devInv_construct s inv k bytes
  | copy h =>
    simp only [devStep]
    cases ho : s.objs.getD h none with
    | none => simp only; exact inv
    | some o =>
      have ho' := getD_none_some ho
      have hk := hs o ho'
      simp only
      cases hkind : o.kind with
      | harmonic => exact absurd hkind hk
      | elph => exact devInv_copy_elph s inv h o ho' hkind
      | threePh =>
        have := devInv_construct s inv .threePh 0
        simp only [Nat.cast_zero, add_zero] at this
        exact this
  | assign dst src =>
    simp only [devStep]
    cases ho : s.objs.getD dst none with
    | none => simp only; exact inv
    | some o =>
      have ho' := getD_none_some ho
      have hk := hs o ho'
      cases ho2 : s.objs.getD src none with
      | none => simp only; exact inv
      | some o' =>
        simp only
        split
        · exact inv
        · rw [hk]; exact inv
  | update h bytes =>
    simp only [devStep]
    cases ho : s.objs.getD h none with
    | none => simp only; exact inv
    | some o =>
      have ho' := getD_none_some ho
      simp only
      split
      · exact inv
      · exact devInv_update s inv h o ho' bytes (hs o ho')
  | destroy h =>
    simp only [devStep]
    cases ho : s.objs.getD h none with
    | none => simp only; exact inv
    | some o =>
      have ho' := getD_none_some ho
      simp only
      refine devInv_remove s inv h o ho' _ ?_ ?_
      · intro hun
        cases hk : o.kind with
        | harmonic => rfl
        | threePh => rfl
        | elph =>
          simp only
          rw [if_pos]
          apply useCount_alone s h o ho'
          intro h1 o1 hne ho1
          rcases inv.share h1 h o1 o hne ho1 ho' with ⟨e, _⟩ | e
          · exact absurd e (hun h1 o1 hne ho1)
          · exact e.1
      · rintro ⟨h1, hne, ho1⟩
        have hk : o.kind = .elph := by
          rcases inv.share h1 h o o hne ho1 ho' with ⟨_, e⟩ | e
          · exact e
          · exact absurd rfl e.1
        rw [hk]
        simp only
        rw [if_neg (useCount_shared s h h1 o hne ho' ho1)]

theorem devInv_run (s : DevState) (inv : DevInv s) (ops : List DevOp) (hs : SafeFrom s ops) :
    DevInv (ops.foldl devStep s) := by
  induction ops generalizing s with
  | nil => exact inv
  | cons op t ih => exact ih _ (devInv_step s inv op hs.1) hs.2

end Verif.Model
