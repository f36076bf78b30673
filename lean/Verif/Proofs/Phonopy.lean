import Verif.Spec.Phonopy
import Verif.Proofs.Phono3py2
import Mathlib.Tactic.Linarith
import Mathlib.Tactic.NormNum

namespace Verif.Proofs
open Verif.Model Verif.Spec Verif.Props

/-! ## The supercell matrix -/

theorem phMatrix_val (last : PhLine) (g : Fin 3 → PhLine) (rest : List PhLine) (N : V3 Int) (h : HasDiagonal g N) :
    phMatrix last (g 0 :: g 1 :: g 2 :: rest) = .ok N := by
  obtain ⟨_, _, _, h0⟩ := h 0
  obtain ⟨_, _, _, h1⟩ := h 1
  obtain ⟨_, _, _, h2⟩ := h 2
  simp [phMatrix, gridRow, YamlLine.int, h0, h1, h2, Outcome.bind_eq]

theorem phDims_skip (last : PhLine) (pre rest : List PhLine) (g : V3 Int) (h1 : Without "supercell_matrix:" pre)
    (h2 : Without "phonon_supercell_matrix:" pre) : phDims last (pre ++ rest) 0 g = phDims last rest 0 g := by
  induction pre with
  | nil => rfl
  | cons l pre ih =>
    simp only [List.cons_append, phDims]
    rw [if_neg (by rw [h2 l List.mem_cons_self]; simp), if_neg (by rw [h1 l List.mem_cons_self]; simp)]
    exact ih (fun l hl => h1 l (List.mem_cons_of_mem _ hl)) (fun l hl => h2 l (List.mem_cons_of_mem _ hl))

theorem phDims_matrix (last sm : PhLine) (g : Fin 3 → PhLine) (rest : List PhLine) (M m : V3 Int) (h1 : sm.has "supercell_matrix:" = true)
    (h2 : sm.has "phonon_supercell_matrix:" = false) (h : HasDiagonal g M) :
    phDims last (sm :: g 0 :: g 1 :: g 2 :: rest) 0 m = phDims last rest 0 M := by
  simp only [phDims]
  rw [if_neg (by rw [h2]; simp), if_pos h1, phMatrix_val _ _ _ _ h]
  rfl

theorem phDims_val (last : PhLine) (lines : List PhLine) (N m : V3 Int) (own : Bool) (h : SupercellOf lines N own) :
    phDims last lines 0 m = .ok (N, own) := by
  cases h with
  | same pre sm g post h h1 h2 h3 h4 =>
    rw [h, phDims_skip _ _ _ _ (fun l hl => h1 l (by simp [hl])) (fun l hl => h2 l (by simp [hl])),
      phDims_matrix _ _ _ _ N _ h3 (h2 sm (by simp)) h4]
    have := phDims_skip last post [] N (fun l hl => h1 l (by simp [hl])) (fun l hl => h2 l (by simp [hl]))
    rw [List.append_nil] at this
    rw [this]
    rfl
  | own pre sm g mid pm g' post M h h1 h2 h3 h4 h5 h6 =>
    rw [h, phDims_skip _ _ _ _ (fun l hl => h1 l (by simp [hl])) (fun l hl => h2 l (by simp [hl])),
      phDims_matrix _ _ _ _ M _ h3 (h2 sm (by simp)) h4,
      phDims_skip _ _ _ _ (fun l hl => h1 l (by simp [hl])) (fun l hl => h2 l (by simp [hl]))]
    simp only [phDims]
    rw [if_pos h5, phMatrix_val _ _ _ _ h6]
    rfl

/-! ## The unit cell -/

/-- The line says that lengths are in Bohr radii. -/
def auOf (l : PhLine) : Bool := l.has "length" && l.has "au"

theorem step_quiet (l : PhLine) (rest : List PhLine) (s : CellState) (hu : s.foundUnit = false) (hp : s.foundPrim = false) (h1 : l.has "unit_cell:" = false) :
    readCell (l :: rest) s = readCell rest { s with au := s.au || auOf l, foundPrim := l.has "primitive_cell:" } := by
  simp only [readCell, hu, hp, h1, Bool.false_eq_true, if_false, false_and, Outcome.bind_eq, Outcome.bind_ok]
  cases h : l.has "primitive_cell:"
  · cases s
    simp only at hp
    subst hp
    rfl
  · rfl

theorem step_found (l : PhLine) (rest : List PhLine) (s : CellState) (hu : s.foundUnit = false) (hp : s.foundPrim = false) (h1 : l.has "unit_cell:" = true)
    (h2 : l.has "primitive_cell:" = false) : readCell (l :: rest) s = readCell rest { s with au := s.au || auOf l, foundUnit := true } := by
  simp only [readCell, hu, hp, h1, h2, Bool.false_eq_true, if_false, if_true, false_and, Outcome.bind_eq, Outcome.bind_ok]
  rfl

theorem step_prim (l : PhLine) (rest : List PhLine) (s s' : CellState) (hu : s.foundUnit = false) (hp : s.foundPrim = true) (h1 : l.has "unit_cell:" = false)
    (h2 : l.has "primitive_cell:" = false) (h : primLine { s with au := s.au || auOf l } l = .ok s') : readCell (l :: rest) s = readCell rest s' := by
  obtain ⟨au, c, ps, ns, sp, il, fu, fp⟩ := s
  simp only at hu hp
  subst hu hp
  have h' : primLine ⟨au || (l.has "length" && l.has "au"), c, ps, ns, sp, il, false, true⟩ l = .ok s' := h
  simp only [readCell, h1, h2, Bool.false_eq_true, if_false, if_true, false_and, Outcome.bind_eq, Outcome.bind_ok]
  rw [h']
  rfl

theorem step_unit (l : PhLine) (rest : List PhLine) (s s' : CellState) (hu : s.foundUnit = true) (ht : l.text ≠ [])
    (h2 : l.has "primitive_cell:" = false) (h : unitLine { s with au := s.au || auOf l } l = .ok s') (hu' : s'.foundUnit = true) (hp' : s'.foundPrim = false) :
    readCell (l :: rest) s = readCell rest s' := by
  obtain ⟨au, c, ps, ns, sp, il, fu, fp⟩ := s
  simp only at hu
  subst hu
  have h' : unitLine ⟨au || (l.has "length" && l.has "au"), c, ps, ns, sp, il, true, fp⟩ l = .ok s' := h
  simp only [readCell, if_true, ht, and_false, if_false, Outcome.bind_eq]
  rw [h']
  simp only [Outcome.bind_ok, hp', h2, Bool.false_eq_true, if_false]
  have e : (⟨s'.au, s'.cell, s'.positions, s'.names, s'.species, s'.ilatt, true, false⟩ : CellState) = s' := by
    cases s'
    simp only at hu' hp'
    subst hu' hp'
    rfl
  rw [e, ite_self]

theorem readCell_quiet (seg rest : List PhLine) (s : CellState) (hu : s.foundUnit = false) (hp : s.foundPrim = false)
    (h : ∀ l ∈ seg, l.has "unit_cell:" = false ∧ l.has "primitive_cell:" = false) :
    readCell (seg ++ rest) s = readCell rest { s with au := s.au || seg.any auOf } := by
  induction seg generalizing s with
  | nil => simp
  | cons l seg ih =>
    obtain ⟨h1, h2⟩ := h l List.mem_cons_self
    rw [List.cons_append, step_quiet _ _ _ hu hp h1]
    rw [ih { s with au := s.au || auOf l, foundPrim := l.has "primitive_cell:" } hu h2 fun x hx => h x (List.mem_cons_of_mem _ hx)]
    simp only [List.any_cons, Bool.or_assoc, h2, hp]

theorem readCell_prim (pc plat : PhLine) (p : Fin 3 → PhLine) (rest : List PhLine) (s : CellState) (hu : s.foundUnit = false) (hp : s.foundPrim = false)
    (hi : s.ilatt = 3) (v : Fin 3 → Fin 3 → ℝ)
    (h : CellLines pc plat p "primitive_cell:" v) (h1 : pc.has "lattice:" = false ∧ plat.has "recip" = false ∧ (∀ k, (p k).has "lattice:" = false) ∧
    ∀ l ∈ [pc, plat, p 0, p 1, p 2], l.has "unit_cell:" = false) (h2 : ∀ l ∈ [plat, p 0, p 1, p 2], l.has "primitive_cell:" = false) :
    readCell (pc :: plat :: p 0 :: p 1 :: p 2 :: rest) s =
      readCell rest { s with au := s.au || [pc, plat, p 0, p 1, p 2].any auOf } := by
  obtain ⟨k1, k2, k3, k4⟩ := h1
  have e0 : (p 0).vec = .ok (v 0) := vec_val _ _ (h.rows 0)
  have e1 : (p 1).vec = .ok (v 1) := vec_val _ _ (h.rows 1)
  have e2 : (p 2).vec = .ok (v 2) := vec_val _ _ (h.rows 2)
  simp only [List.mem_cons, List.not_mem_nil, or_false, forall_eq_or_imp, forall_eq] at k4 h2
  obtain ⟨u0, u1, u2, u3, u4⟩ := k4
  obtain ⟨q1, q2, q3, q4⟩ := h2
  have t := h.title_has
  have lt := h.lat_has
  obtain ⟨au, c, ps, ns, sp, il, fu, fp⟩ := s
  simp only at hu hp hi
  subst hu hp hi
  rw [step_quiet _ _ _ rfl rfl u0]
  rw [step_prim plat _ _ ⟨au || auOf pc || auOf plat, c, ps, ns, sp, 0, false, true⟩ rfl t u1 q1 (by simp [primLine, lt, k2, t, Outcome.bind_eq])]
  rw [step_prim (p 0) _ _ ⟨au || auOf pc || auOf plat || auOf (p 0), c, ps, ns, sp, 1, false, true⟩ rfl rfl u2 q2
    (by simp [primLine, e0, k3, Outcome.bind_eq])]
  rw [step_prim (p 1) _ _ ⟨au || auOf pc || auOf plat || auOf (p 0) || auOf (p 1), c, ps, ns, sp, 2, false, true⟩ rfl rfl u3 q3
    (by simp [primLine, e1, k3, Outcome.bind_eq])]
  rw [step_prim (p 2) _ _ ⟨au || auOf pc || auOf plat || auOf (p 0) || auOf (p 1) || auOf (p 2), c, ps, ns, sp, 3, false, false⟩ rfl rfl u4 q4
    (by simp [primLine, e2, k3, Outcome.bind_eq])]
  simp [Bool.or_assoc]

/-- The atoms of the cell, one after the other. -/
def atomFold (s : CellState) (as : List (List Char × (Fin 3 → ℝ))) : CellState :=
  as.foldl (fun s a => { s.addSpecies a.1 with positions := s.positions ++ [a.2] }) s

theorem readCell_unit (uc lat : PhLine) (a : Fin 3 → PhLine) (rest : List PhLine) (au : Bool) (v : Fin 3 → Fin 3 → ℝ)
    (h : CellLines uc lat a "unit_cell:" v) (h0 : uc.has "primitive_cell:" = false)
    (h1 : ∀ l ∈ [lat, a 0, a 1, a 2], l.has " symbol: " = false ∧ l.has "coordinates: " = false ∧ l.has "primitive_cell:" = false ∧ l.text ≠ [])
    (h2 : ∀ k, (a k).has "lattice:" = false) :
    readCell (uc :: lat :: a 0 :: a 1 :: a 2 :: rest) ⟨au, fun _ => none, [], [], [], 3, false, false⟩ =
      readCell rest ⟨au || [uc, lat, a 0, a 1, a 2].any auOf,
        Function.update (Function.update (Function.update (fun _ => none) 0 (some (v 0))) 1 (some (v 1))) 2 (some (v 2)), [], [], [], 3, true, false⟩ := by
  have e0 : (a 0).vec = .ok (v 0) := vec_val _ _ (h.rows 0)
  have e1 : (a 1).vec = .ok (v 1) := vec_val _ _ (h.rows 1)
  have e2 : (a 2).vec = .ok (v 2) := vec_val _ _ (h.rows 2)
  simp only [List.mem_cons, List.not_mem_nil, or_false, forall_eq_or_imp, forall_eq] at h1
  obtain ⟨⟨l1, l2, l3, l4⟩, ⟨a1, a2, a3, a4⟩, ⟨b1, b2, b3, b4⟩, ⟨c1, c2, c3, c4⟩⟩ := h1
  have t := h.title_has
  have lt := h.lat_has
  rw [step_found _ _ _ rfl rfl t h0]
  rw [step_unit lat _ _ ⟨au || auOf uc || auOf lat, fun _ => none, [], [], [], 0, true, false⟩ rfl l4 l3
    (by simp [unitLine, l1, l2, lt, Outcome.bind_eq]) rfl rfl]
  rw [step_unit (a 0) _ _ ⟨au || auOf uc || auOf lat || auOf (a 0), Function.update (fun _ => none) 0 (some (v 0)), [], [], [], 1, true, false⟩ rfl a4 a3
    (by simp [unitLine, a1, a2, e0, h2, Outcome.bind_eq]) rfl rfl]
  rw [step_unit (a 1) _ _ ⟨au || auOf uc || auOf lat || auOf (a 0) || auOf (a 1),
    Function.update (Function.update (fun _ => none) 0 (some (v 0))) 1 (some (v 1)), [], [], [], 2, true, false⟩ rfl b4 b3
    (by simp [unitLine, b1, b2, e1, h2, Outcome.bind_eq]) rfl rfl]
  rw [step_unit (a 2) _ _ ⟨au || auOf uc || auOf lat || auOf (a 0) || auOf (a 1) || auOf (a 2),
    Function.update (Function.update (Function.update (fun _ => none) 0 (some (v 0))) 1 (some (v 1))) 2 (some (v 2)), [], [], [], 3, true, false⟩ rfl c4 c3
    (by simp [unitLine, c1, c2, e2, h2, Outcome.bind_eq]) rfl rfl]
  simp [Bool.or_assoc]

theorem symbolOf_text (name number : List Char) (h : ∀ c ∈ name, c ≠ '#' ∧ c.isWhitespace = false) : symbolOf (symbolText name number) = name := by
  have e1 : afterKey symbolKey (symbolText name number) = some (name ++ ([' ', '#', ' '] ++ number)) := by
    simp [symbolText, afterKey, symbolKey]
  have e2 : (symbolText name number).findIdx? (· == '#') = some (13 + name.length) := by
    have hn : ∀ (l t : List Char), (∀ c ∈ l, c ≠ '#') → (l ++ '#' :: t).findIdx? (· == '#') = some l.length := by
      intro l t hl
      induction l with
      | nil => rfl
      | cons c l ih =>
        have hc : (c == '#') = false := by simpa using hl c List.mem_cons_self
        rw [List.cons_append, List.findIdx?_cons, hc, ih fun x hx => hl x (List.mem_cons_of_mem _ hx)]
        simp
    have e : symbolText name number = (([' ', ' ', '-', ' ', 's', 'y', 'm', 'b', 'o', 'l', ':', ' '] ++ name ++ [' ']) ++ '#' :: ([' '] ++ number)) := by
      simp [symbolText]
    rw [e, hn]
    · congr 1
      simp
      omega
    · intro c hc
      simp only [List.mem_append, List.mem_cons, List.not_mem_nil, or_false] at hc
      rcases hc with (hc | hc) | hc
      · rcases hc with rfl | rfl | rfl | rfl | rfl | rfl | rfl | rfl | rfl | rfl | rfl | rfl <;> decide
      · exact (h c hc).1
      · rw [hc]; decide
  unfold symbolOf
  rw [e1, e2]
  simp only [Option.getD_some]
  rw [if_neg (by omega), Nat.add_sub_cancel_left, List.take_left', List.filter_eq_self]
  · intro c hc
    rw [(h c hc).2]
    rfl
  · rfl

/-- One atom. -/
def atomStep (s : CellState) (a : List Char × (Fin 3 → ℝ)) : CellState := { s.addSpecies a.1 with positions := s.positions ++ [a.2] }

theorem atomFold_au (s : CellState) (b b' : Bool) (as : List (List Char × (Fin 3 → ℝ))) :
    ({ atomFold { s with au := b } as with au := b' } : CellState) = { atomFold s as with au := b' } := by
  unfold atomFold
  induction as generalizing s with
  | nil => rfl
  | cons a as ih => simp only [List.foldl_cons]; exact ih (atomStep s a)

theorem readCell_atoms (ls rest : List PhLine) (as : List (List Char × (Fin 3 → ℝ))) (h : AtomLines ls as) (s : CellState)
    (h1 : s.ilatt = 3) (h2 : s.foundUnit = true) (h3 : s.foundPrim = false) :
    readCell (ls ++ rest) s = readCell rest { atomFold s as with au := s.au || ls.any auOf } := by
  induction h generalizing s with
  | nil => simp [atomFold]
  | other l ls as hp t ih =>
    obtain ⟨p1, p2, p3, p4, p5, p6⟩ := hp
    rw [List.cons_append, step_unit l _ s { s with au := s.au || auOf l } h2 p6 p5 (by simp [unitLine, p1, p2, p3, h1, Outcome.bind_eq]) h2 h3]
    rw [ih { s with au := s.au || auOf l } h1 h2 h3, atomFold_au]
    simp only [List.any_cons, Bool.or_assoc]
  | atom l l' ls name number p as q1 q2 q3 q4 q5 k1 k2 k3 k4 k5 t ih =>
    obtain ⟨q3, q3'⟩ := q3
    obtain ⟨q4, q4'⟩ := q4
    obtain ⟨k3, k3'⟩ := k3
    obtain ⟨k4, k4'⟩ := k4
    have hs : symbolOf l.text = name := by rw [q2]; exact symbolOf_text _ _ q5.2
    have ht : l.text ≠ [] := by rw [q2]; simp [symbolText]
    have ev : l'.vec = .ok p := vec_val _ _ k2
    rw [List.cons_append, List.cons_append, step_unit l _ s (({ s with au := s.au || auOf l } : CellState).addSpecies name) h2 ht q4'
      (by simp [unitLine, q1, q3, q3', hs, CellState.addSpecies, h1, Outcome.bind_eq]) h2 h3]
    rw [step_unit l' (ls ++ rest) (({ s with au := s.au || auOf l } : CellState).addSpecies name) { atomStep s (name, p) with au := s.au || auOf l || auOf l' } h2 k5 k4'
      (by simp [unitLine, k1, k3, k3', ev, CellState.addSpecies, atomStep, h1, Outcome.bind_eq]) h2 h3]
    rw [ih { atomStep s (name, p) with au := s.au || auOf l || auOf l' } h1 h2 h3, atomFold_au]
    simp only [List.any_cons, Bool.or_assoc]
    rfl

end Verif.Proofs
