import Verif.Proofs.Phonopy
import Mathlib.Tactic.Ring
import Mathlib.Tactic.FieldSimp
import Mathlib.Data.List.FinRange
import Mathlib.Data.Finset.Image

namespace Verif.Proofs
open Verif.Model Verif.Spec Verif.Props

/-! ## The unit cell -/

theorem readCell_blank (rest : List PhLine) (s : CellState) (h1 : s.ilatt = 3) (h2 : s.foundUnit = true) :
    readCell (.blank :: rest) s = .ok (s, rest) := by
  obtain ⟨au, c, ps, ns, sp, il, fu, fp⟩ := s
  simp only at h1 h2
  subst h1 h2
  simp [readCell, PhLine.blank, unitLine, Outcome.bind_eq]

theorem atomFold_flags (s : CellState) (as : List (List Char × (Fin 3 → ℝ))) :
    (atomFold s as).ilatt = s.ilatt ∧ (atomFold s as).foundUnit = s.foundUnit ∧ (atomFold s as).foundPrim = s.foundPrim ∧
      (atomFold s as).cell = s.cell ∧ (atomFold s as).positions = s.positions ++ as.map Prod.snd := by
  unfold atomFold
  induction as generalizing s with
  | nil => simp
  | cons a as ih =>
    simp only [List.foldl_cons]
    obtain ⟨h1, h2, h3, h4, h5⟩ := ih (atomStep s a)
    refine ⟨h1, h2, h3, h4, ?_⟩
    refine h5.trans ?_
    simp [atomStep]

/-- The species are numbered. -/
structure Numbered (s : CellState) (as : List (List Char)) : Prop where
  nodup : s.names.Nodup
  mem : ∀ x, x ∈ s.names ↔ x ∈ as
  length : s.species.length = as.length
  val : ∀ (b : Nat) (x : List Char), as[b]? = some x → ∃ k, s.species[b]? = some k ∧ s.names[k]? = some x

theorem idxOf_spec (l : List (List Char)) (x : List Char) (h : x ∈ l) : l[l.idxOf x]? = some x := by
  rw [List.getElem?_eq_getElem (List.idxOf_lt_length_of_mem h), List.getElem_idxOf]

theorem atomFold_numbered (s : CellState) (done : List (List Char)) (as : List (List Char × (Fin 3 → ℝ))) (h : Numbered s done) :
    Numbered (atomFold s as) (done ++ as.map Prod.fst) := by
  unfold atomFold
  induction as generalizing s done with
  | nil => simpa using h
  | cons a as ih =>
    simp only [List.foldl_cons]
    have key : Numbered (atomStep s a) (done ++ [a.1]) := by
      by_cases hm : a.1 ∈ s.names
      · constructor
        · simp only [atomStep, CellState.addSpecies, if_pos hm]; exact h.nodup
        · intro x
          simp only [atomStep, CellState.addSpecies, if_pos hm]
          rw [List.mem_append, List.mem_singleton, h.mem]
          constructor
          · exact Or.inl
          · rintro (k | rfl)
            · exact k
            · exact (h.mem _).mp hm
        · simp [atomStep, CellState.addSpecies, h.length]
        · intro b x hb
          simp only [atomStep, CellState.addSpecies, if_pos hm]
          rcases Nat.lt_or_ge b done.length with hlt | hge
          · rw [List.getElem?_append_left hlt] at hb
            rw [List.getElem?_append_left (by rw [h.length]; exact hlt)]
            exact h.val b x hb
          · rw [List.getElem?_append_right hge] at hb
            rw [List.getElem?_append_right (by rw [h.length]; exact hge), h.length]
            have e : b - done.length = 0 := by
              by_contra hne
              rw [List.getElem?_eq_none (by simp; omega)] at hb
              simp at hb
            rw [e] at hb ⊢
            simp only [List.getElem?_cons_zero, Option.some.injEq] at hb ⊢
            exact ⟨_, rfl, hb ▸ idxOf_spec _ _ hm⟩
      · constructor
        · simp only [atomStep, CellState.addSpecies, if_neg hm]
          exact List.nodup_append.mpr ⟨h.nodup, by simp, by
            intro x hx y hy
            rw [List.mem_singleton] at hy
            rintro rfl
            exact hm (hy ▸ hx)⟩
        · intro x
          simp only [atomStep, CellState.addSpecies, if_neg hm]
          rw [List.mem_append, List.mem_append, h.mem]
        · simp [atomStep, CellState.addSpecies, h.length]
        · intro b x hb
          simp only [atomStep, CellState.addSpecies, if_neg hm]
          rcases Nat.lt_or_ge b done.length with hlt | hge
          · rw [List.getElem?_append_left hlt] at hb
            rw [List.getElem?_append_left (by rw [h.length]; exact hlt)]
            obtain ⟨k, k1, k2⟩ := h.val b x hb
            refine ⟨k, k1, ?_⟩
            rw [List.getElem?_append_left (List.getElem?_eq_some_iff.mp k2).1]
            exact k2
          · rw [List.getElem?_append_right hge] at hb
            rw [List.getElem?_append_right (by rw [h.length]; exact hge), h.length]
            have e : b - done.length = 0 := by
              by_contra hne
              rw [List.getElem?_eq_none (by simp; omega)] at hb
              simp at hb
            rw [e] at hb ⊢
            simp only [List.getElem?_cons_zero, Option.some.injEq] at hb ⊢
            exact ⟨_, rfl, hb ▸ idxOf_spec _ _ (by simp)⟩
    have := ih (atomStep s a) (done ++ [a.1]) key
    rw [List.append_assoc] at this
    exact this

theorem numbered_count {A : Nat} (name : Fin A → List Char) (s : CellState) (h : Numbered s ((List.finRange A).map name)) :
    s.names.length = (Finset.univ.image name).card := by
  classical
  rw [← List.toFinset_card_of_nodup h.nodup]
  congr 1
  ext x
  rw [List.mem_toFinset, h.mem]
  simp

theorem readCell_file {A : Nat} (f : PhonopyFile) (N : V3 Int) (own : Bool) (d : Mat3) (name : Fin A → List Char) (frac : Fin A → Fin 3 → ℝ)
    (order : List (V3 Int)) (bohr : ℝ) (h : f.Describes N own d name frac order bohr) (rest : List PhLine) :
    ∃ (s : CellState) (v w : Fin 3 → Fin 3 → ℝ), readCell (f.upToCell ++ .blank :: rest) .init = .ok (s, rest) ∧
      (∀ k i, v k i * (if s.au then 1 else 1 / bohr) = d i k) ∧
      (CellLines f.su f.slat f.v (if own then "phonon_supercell:" else "supercell:") w ∧
        ∀ k i, w k i * (if s.au then 1 else 1 / bohr) = asFun N k * d i k) ∧
      s.cell 0 = some (v 0) ∧ s.cell 1 = some (v 1) ∧ s.cell 2 = some (v 2) ∧
      s.positions = (List.finRange A).map frac ∧ Numbered s ((List.finRange A).map name) := by
  obtain ⟨vp, hp⟩ := h.prim
  obtain ⟨v, unit, hc, hu, hv, w, hw, hw'⟩ := h.cell
  have e1 : readCell (f.upToCell ++ .blank :: rest) .init = readCell
      (f.pc :: f.plat :: f.p 0 :: f.p 1 :: f.p 2 :: (f.mid ++ (f.uc :: f.lat :: f.a 0 :: f.a 1 :: f.a 2 :: (f.atoms ++ .blank :: rest))))
      { CellState.init with au := f.head.any auOf } := by
    have := readCell_quiet f.head (f.pc :: f.plat :: f.p 0 :: f.p 1 :: f.p 2 :: (f.mid ++ (f.uc :: f.lat :: f.a 0 :: f.a 1 :: f.a 2 ::
      (f.atoms ++ .blank :: rest)))) .init rfl rfl (fun l hl => h.quiet l (by simp [hl]))
    simp only [PhonopyFile.upToCell, List.append_assoc, List.cons_append]
    rw [this]
    simp [CellState.init]
  rw [readCell_prim _ _ _ _ _ rfl rfl rfl vp hp h.primOther h.primOnce, readCell_quiet f.mid _ _ rfl rfl (fun l hl => h.quiet l (by simp [hl]))] at e1
  simp only [CellState.init] at e1
  rw [readCell_unit _ _ _ _ _ v hc h.cellOther.1 h.cellOther.2.1 h.cellOther.2.2] at e1
  rw [readCell_atoms _ _ _ h.atoms _ rfl rfl rfl] at e1
  obtain ⟨s0, hs0⟩ : ∃ s0 : CellState, s0 = ⟨((f.head.any auOf || [f.pc, f.plat, f.p 0, f.p 1, f.p 2].any auOf) || f.mid.any auOf) ||
    [f.uc, f.lat, f.a 0, f.a 1, f.a 2].any auOf,
        Function.update (Function.update (Function.update (fun _ => none) 0 (some (v 0))) 1 (some (v 1))) 2 (some (v 2)), [], [], [], 3, true, false⟩ := ⟨_, rfl⟩
  rw [← hs0] at e1
  obtain ⟨g1, g2, g3, g4, g5⟩ := atomFold_flags s0 ((List.finRange A).map fun b => (name b, frac b))
  have g6 := atomFold_numbered s0 [] ((List.finRange A).map fun b => (name b, frac b)) (by
    rw [hs0]; exact ⟨by simp, by simp, rfl, by simp⟩)
  have hau : ∀ b : Bool, b = (s0.au || f.atoms.any auOf) → (if b then (1 : ℝ) else 1 / bohr) = unit := by
    intro b hb
    have hb' : b = f.upToCell.any auOf := by
      rw [hb, hs0]
      simp [PhonopyFile.upToCell, Bool.or_assoc]
    rw [hb']
    rcases hu with ⟨hu, l, hl, h1, h2⟩ | ⟨hu, hn⟩
    · rw [if_pos, hu]
      rw [List.any_eq_true]
      exact ⟨l, hl, by simp [auOf, h1, h2]⟩
    · rw [if_neg, hu]
      rw [List.any_eq_true]
      rintro ⟨l, hl, h1⟩
      apply hn l hl
      simpa [auOf] using h1
  rw [readCell_blank _ _ (by show (atomFold s0 _).ilatt = 3; rw [g1, hs0]) (by show (atomFold s0 _).foundUnit = true; rw [g2, hs0])] at e1
  refine ⟨_, v, w, e1, ?_, ⟨hw, ?_⟩, ?_, ?_, ?_, ?_, ?_⟩
  · intro k i
    rw [hau _ rfl, hv]
  · intro k i
    rw [hau _ rfl, hw']
  · simp only; rw [g4, hs0]; simp [Function.update]
  · simp only; rw [g4, hs0]; simp [Function.update]
  · simp only; rw [g4, hs0]; simp [Function.update]
  · simp only; rw [g5, hs0]; simp [Function.comp_def]
  · simp only [List.nil_append, List.map_map] at g6
    exact ⟨g6.nodup, g6.mem, g6.length, g6.val⟩

/-! ## The supercell -/

theorem phSup_skip (search : String) (pre rest : List PhLine) (s : SupState) (hs : s.read = false) (h : ∀ l ∈ pre, l.has search = false) :
    phSup search (pre ++ rest) s = phSup search rest s := by
  induction pre with
  | nil => rfl
  | cons l pre ih =>
    have h1 := h l List.mem_cons_self
    simp only [List.cons_append, phSup, h1, hs, Bool.false_eq_true, if_false, and_false, Outcome.bind_eq, Outcome.bind_ok]
    exact ih fun l hl => h l (List.mem_cons_of_mem _ hl)

theorem phSup_coords (search : String) (body rest : List PhLine) (ps : List (Fin 3 → ℝ)) (h : SupLines body ps) (pos : List (Fin 3 → ℝ))
    (lat : Nat → Fin 3 → ℝ) : phSup search (body ++ rest) ⟨pos, lat, 3, true⟩ = phSup search rest ⟨pos ++ ps, lat, 3, true⟩ := by
  induction h generalizing pos with
  | nil => simp
  | other l ls ps h1 h2 t ih =>
    simp only [List.cons_append, phSup, h1, h2, Bool.false_eq_true, if_false, false_and, Outcome.bind_eq, Outcome.bind_ok, ite_self, lt_irrefl]
    exact ih pos
  | coord l ls p ps h1 h2 h3 t ih =>
    have e : l.vec = .ok p := vec_val _ _ h3
    simp only [List.cons_append, phSup, h1, h2, e, Bool.false_eq_true, if_false, if_true, true_and, false_and, Outcome.bind_eq, Outcome.bind_ok, ite_self, lt_irrefl]
    rw [ih]
    simp

theorem phSup_head (search : String) (su slat : PhLine) (a : Fin 3 → PhLine) (rest : List PhLine) (w : Fin 3 → Fin 3 → ℝ)
    (h : CellLines su slat a search w)
    (h1 : (∀ l ∈ [su, slat, a 0, a 1, a 2], l.has "coordinates: " = false) ∧ su.has "lattice:" = false ∧ ∀ k, (a k).has "lattice:" = false) :
    phSup search (su :: slat :: a 0 :: a 1 :: a 2 :: rest) ⟨[], fun _ _ => 0, 3, false⟩ =
      phSup search rest ⟨[], Function.update (Function.update (Function.update (fun _ _ => 0) 0 (w 0)) 1 (w 1)) 2 (w 2), 3, true⟩ := by
  have e0 : (a 0).vec = .ok (w 0) := vec_val _ _ (h.rows 0)
  have e1 : (a 1).vec = .ok (w 1) := vec_val _ _ (h.rows 1)
  have e2 : (a 2).vec = .ok (w 2) := vec_val _ _ (h.rows 2)
  obtain ⟨hc, hs, hk⟩ := h1
  simp only [List.mem_cons, List.not_mem_nil, or_false, forall_eq_or_imp, forall_eq] at hc
  obtain ⟨c1, c2, c3, c4, c5⟩ := hc
  simp [phSup, h.title_has, h.lat_has, hs, hk, c1, c2, c3, c4, c5, e0, e1, e2, Outcome.bind_eq]

/-! ## Cells -/

theorem findRIndex_val (d : Mat3) (order : List (V3 Int)) (hd : LatticeApart6 d) (hn : order.Nodup) (s : Nat) (n : V3 Int)
    (h : order[s]? = some n) : findRIndex (order.map (latVec d)) (latVec d n) = .ok s := by
  classical
  obtain ⟨hs, hsn⟩ := List.getElem?_eq_some_iff.mp h
  have : (order.map (latVec d)).findIdx? (fun c => decide (vdot (fun i => latVec d n i - c i) (fun i => latVec d n i - c i) < 1.0e-6)) = some s := by
    rw [List.findIdx?_eq_some_iff_getElem]
    refine ⟨by simpa using hs, ?_, ?_⟩
    · simp only [List.getElem_map, hsn, sub_self, vdot, decide_eq_true_eq]
      norm_num
    · intro j hj
      simp only [List.getElem_map, Bool.not_eq_true, decide_eq_false_iff_not, not_lt]
      apply hd
      intro he
      have := (List.Nodup.getElem_inj_iff hn (hi := hs) (hj := hj.trans hs)).mp (hsn.trans he)
      omega
  unfold findRIndex
  simp only [this]

theorem mem_phCells (N n : V3 Int) :
    n ∈ phCells N ↔ (0 ≤ n.x ∧ n.x < N.x) ∧ (0 ≤ n.y ∧ n.y < N.y) ∧ (0 ≤ n.z ∧ n.z < N.z) := by
  simp only [phCells, List.mem_flatMap, List.mem_map, List.mem_range]
  constructor
  · rintro ⟨z, hz, y, hy, x, hx, rfl⟩
    simp only
    omega
  · rintro ⟨hx, hy, hz⟩
    refine ⟨n.z.toNat, by omega, n.y.toNat, by omega, n.x.toNat, by omega, ?_⟩
    obtain ⟨a, b, c⟩ := n
    simp only at hx hy hz
    simp only [V3.mk.injEq]
    omega

theorem phEntries_val (A : Nat) (d : Mat3) (N : V3 Int) (order : List (V3 Int)) (f : Fc2File) (conv : ℝ) (hd : LatticeApart6 d) (ho : IsOrder N order)
    (h0 : f.d0 ≠ 0) (V : V3 Int → Nat → Nat → Fin 3 → Fin 3 → ℝ)
    (hV : ∀ (s : Nat) (c : V3 Int), order[s]? = some c → ∀ b b', b < A → b' < A → fc2Block f conv s b b' = .ok (V c b b')) :
    ∃ es, phEntries A d N (order.map (latVec d)) f conv = .ok es ∧
      ∀ n ∈ order, ∀ b b', b < A → b' < A →
        (es.find? fun e => decide (e.cell = n ∧ e.iat = b ∧ e.jat = b')) = some ⟨n, b, b', V n b b'⟩ := by
  refine ⟨(phCells N).flatMap fun n => (List.range A).flatMap fun b => (List.range A).flatMap fun b' => [⟨n, b, b', V n b b'⟩], ?_, ?_⟩
  · unfold phEntries
    rw [if_neg h0]
    apply collect_val
    intro n hn
    obtain ⟨s, hs, hsn⟩ := List.getElem_of_mem ((ho.mem n).mpr ((mem_phCells N n).mp hn))
    have hs' : order[s]? = some n := by rw [List.getElem?_eq_getElem hs, hsn]
    rw [findRIndex_val d order hd ho.nodup s n hs']
    show collect _ _ = _
    apply collect_val
    intro b hb
    apply collect_val
    intro b' hb'
    rw [hV s n hs' b b' (List.mem_range.mp hb) (List.mem_range.mp hb')]
    rfl
  · intro n hn b b' hb hb'
    have hmem : (⟨n, b, b', V n b b'⟩ : Fc2Entry) ∈ (phCells N).flatMap fun n => (List.range A).flatMap fun b => (List.range A).flatMap fun b' =>
        [(⟨n, b, b', V n b b'⟩ : Fc2Entry)] := by
      simp only [List.mem_flatMap, List.mem_range, List.mem_singleton]
      exact ⟨n, (mem_phCells N n).mpr ((ho.mem n).mp hn), b, hb, b', hb', rfl⟩
    cases he : List.find? (fun e : Fc2Entry => decide (e.cell = n ∧ e.iat = b ∧ e.jat = b')) ((phCells N).flatMap fun n => (List.range A).flatMap fun b =>
        (List.range A).flatMap fun b' => [(⟨n, b, b', V n b b'⟩ : Fc2Entry)]) with
    | none =>
      rw [List.find?_eq_none] at he
      exact absurd (by simp) (he _ hmem)
    | some e =>
      have h1 := List.find?_some he
      have h2 := List.mem_of_find?_eq_some he
      simp only [List.mem_flatMap, List.mem_range, List.mem_singleton] at h2
      obtain ⟨n2, -, b2, -, b3, -, rfl⟩ := h2
      simp only [decide_eq_true_eq] at h1
      obtain ⟨rfl, rfl, rfl⟩ := h1
      rfl

end Verif.Proofs
