import Verif.Proofs.TransportRun

/-!
# C161: a transport run does what is asked, or says why not
-/

namespace Verif.Props

open Verif.Model Verif.Spec Verif.Proofs

private theorem filesOf_append (a b : List RunEvent) : filesOf (a ++ b) = filesOf a ++ filesOf b := by
  unfold filesOf
  exact List.filterMap_append

private theorem filesOf_products {use : List RunEvent} {src : MatrixSource}
    (h : ∀ x ∈ use, x = .product src) : filesOf use = [] := by
  unfold filesOf
  rw [List.filterMap_eq_nil_iff]
  intro a ha
  rw [h a ha]

private theorem good_source (s : RunSettings) (scaled : Bool) {x : ExactSolver} (hx : x ≠ .relaxons)
    {use : List RunEvent} (h : ∀ e ∈ use, e = .product (sourceOf s scaled)) :
    ∀ e ∈ use, GoodUse scaled x e := by
  intro e he
  have := h e he
  unfold sourceOf at this
  cases x with
  | relaxons => exact absurd rfl hx
  | iterative =>
    unfold GoodUse
    split at this
    · exact .inl this
    · exact .inr this
  | variational =>
    unfold GoodUse
    split at this
    · exact .inl this
    · exact .inr this

/-- What a part of the run that solves by products gives. -/
private def PartGives (s : RunSettings) (scaled : Bool) (asked : Prop) (file : String)
    (e : List RunEvent) : Prop :=
  (asked ∧ ∃ use, e = use ++ [.write file] ∧ use ≠ [] ∧
    ∀ x ∈ use, x = .product (sourceOf s scaled)) ∨ (¬ asked ∧ e = [])

private theorem part_files {s : RunSettings} {scaled : Bool} {asked : Prop} [Decidable asked]
    {file : String} {e : List RunEvent} (h : PartGives s scaled asked file e) :
    filesOf e = if asked then [file] else [] := by
  rcases h with ⟨a, use, rfl, -, hu⟩ | ⟨a, rfl⟩
  · rw [if_pos a, filesOf_append, filesOf_products hu]
    rfl
  · rw [if_neg a]
    rfl

private theorem part_solved {s : RunSettings} {scaled : Bool} {asked : Prop}
    {file : String} {e : List RunEvent} (h : PartGives s scaled asked file e) {x : ExactSolver}
    (hx : x ≠ .relaxons) (a : asked) (before after : List RunEvent) :
    Solved scaled x file (before ++ e ++ after) := by
  rcases h with ⟨-, use, rfl, hne, hu⟩ | ⟨b, -⟩
  · exact ⟨before, use, after, by simp, hne, good_source s scaled hx hu⟩
  · exact absurd a b

private theorem sym_off {s : RunSettings} {w : RunWorld}
    (h : Asked s .variational ∨ Asked s .relaxons → s.useSymmetries = false)
    (a : Asked s .relaxons) : (s.useSymmetries && w.manySymmetries) = false := by
  rw [h (.inr a)]
  rfl

private theorem wanted_iff {s : RunSettings} {w : RunWorld} : SymmetrizeWanted s w ↔
    s.symmetrize = true ∧ s.inMemory = true ∧ (s.useSymmetries && w.manySymmetries) = false ∧
      ∃ x, Asked s x := by
  unfold SymmetrizeWanted
  rw [← Bool.and_eq_true, Bool.not_eq_true]

/-- The pieces of a phonon run with computed lifetimes. -/
private theorem phonon_pieces {s : RunSettings} {w : RunWorld} (hc : s.constantTime = none)
    (h0 : 0 < s.maxIterations) (hw : 0 < w.numStates) {ev : List RunEvent}
    (h : phononRun s w = .ok ev) :
    ∃ e₀ e₁ e₂ e₃ e₄, ev = e₀ ++ phononRtaFiles.map .write ++ e₁ ++ e₂ ++ e₃ ++ e₄ ∧
      e₀ = (if s.elph = "" then [] else
        [.write "rta_phel_relaxation_times.json", .write "rta_phph_relaxation_times.json"]) ∧
      ((e₁ = [] ∧ ¬ SymmetrizeWanted s w) ∨ (e₁ = [.symmetrized] ∧ SymmetrizeWanted s w)) ∧
      PartGives s false (Asked s .iterative) "omini_phonon_thermal_cond.json" e₂ ∧
      PartGives s false (Asked s .variational) "variational_phonon_thermal_cond.json" e₃ ∧
      ((Asked s .relaxons ∧ ∃ n, n = relaxonsWanted s w ∧ e₄ =
        [.rescaled, .product (.stored true), .write "ph_relaxons_real_space_coeffs.json",
        .diagonalized true n, .write "relaxons_phonon_thermal_cond.json",
        .write "relaxons_relaxation_times.json", .write "relaxons_phonon_viscosity.json"]) ∨
        (¬ Asked s .relaxons ∧ e₄ = [])) := by
  unfold phononRun at h
  rw [Outcome.bind_eq_ok_iff] at h
  obtain ⟨_, hs, h⟩ := h
  rw [sanity_ok] at hs
  rw [Outcome.bind_eq_ok_iff] at h
  obtain ⟨_, _, h⟩ := h
  rw [Outcome.bind_eq_ok_iff] at h
  obtain ⟨_, _, h⟩ := h
  rw [Outcome.bind_eq_ok_iff] at h
  obtain ⟨_, _, h⟩ := h
  rw [Outcome.bind_eq_ok_iff] at h
  obtain ⟨o, ho, h⟩ := h
  obtain ⟨_, rfl⟩ := (make_ok hc false true).mp ho
  rw [Outcome.bind_eq_ok_iff] at h
  obtain ⟨o, ho', h⟩ := h
  obtain ⟨_, rfl⟩ := (setup_ok (s := s) (w := w) false _).mp ho'
  rw [Outcome.bind_eq_ok_iff] at h
  obtain ⟨e₀, he₀, h⟩ := h
  rw [Outcome.bind_eq_ok_iff] at h
  obtain ⟨e₁, he₁, h⟩ := h
  rw [Outcome.bind_eq_ok_iff] at h
  obtain ⟨e₂, he₂, h⟩ := h
  rw [Outcome.bind_eq_ok_iff] at h
  obtain ⟨e₃, he₃, h⟩ := h
  rw [Outcome.bind_eq_ok_iff] at h
  obtain ⟨e₄, he₄, h⟩ := h
  rw [Outcome.ok.injEq] at h
  obtain ⟨c1, c2, c3, c4⟩ := checks_ok he₁
  rw [flags_eq] at he₂ he₃ he₄
  rw [onlyIf_ok] at he₀ he₂ he₃ he₄
  refine ⟨e₀, e₁, e₂, e₃, e₄, h.symm, ?_, c4.imp (fun a => ⟨a.1, by rw [wanted_iff]; exact a.2⟩) (fun a => ⟨a.1, by rw [wanted_iff]; exact a.2⟩), ?_, ?_, ?_⟩
  · rcases he₀ with ⟨a, b⟩ | ⟨a, b⟩
    · rw [if_neg (by simpa using a)]
      unfold phononElectronPart at b
      rw [Outcome.bind_eq_ok_iff] at b
      obtain ⟨_, _, b⟩ := b
      rw [Outcome.bind_eq_ok_iff] at b
      obtain ⟨_, _, b⟩ := b
      rw [Outcome.bind_eq_ok_iff] at b
      obtain ⟨_, _, b⟩ := b
      rw [Outcome.bind_eq_ok_iff] at b
      obtain ⟨_, _, b⟩ := b
      rw [Outcome.ok.injEq] at b
      exact b.symm
    · rw [if_pos (by simpa using a)]
      exact b
  · rcases he₂ with ⟨a, b⟩ | ⟨a, b⟩
    · exact .inl ⟨by simpa [Asked, ExactSolver.name] using a, (iterative_part hw h0 false _).2.2 _ b⟩
    · exact .inr ⟨by simpa [Asked, ExactSolver.name] using a, b⟩
  · rcases he₃ with ⟨a, b⟩ | ⟨a, b⟩
    · obtain ⟨use, h1, h2, h3⟩ := (variational_part hw h0 false _).2.2 _ b
      exact .inl ⟨by simpa [Asked, ExactSolver.name] using a, use, h1,
        fun hn => by rw [hn] at h2; simp at h2, h3⟩
    · exact .inr ⟨by simpa [Asked, ExactSolver.name] using a, b⟩
  · rcases he₄ with ⟨a, b⟩ | ⟨a, b⟩
    · have asked : Asked s .relaxons := by simpa [Asked, ExactSolver.name] using a
      rw [sym_off hs asked] at b
      exact .inl ⟨asked, (relaxons_phonon hw (c1 asked)).2.2 _ b⟩
    · exact .inr ⟨by simpa [Asked, ExactSolver.name] using a, b⟩

private def isDiag : RunEvent → Bool
  | .diagonalized _ _ => true
  | _ => false

private theorem diag_last {pre q before after : List RunEvent} {scaled : Bool} {n : Option Int}
    (hp : ∀ e ∈ pre, isDiag e = false)
    (h : pre ++ q = before ++ .diagonalized scaled n :: after) :
    ∃ b, q = b ++ .diagonalized scaled n :: after := by
  rcases List.append_eq_append_iff.mp h with ⟨b, hb, hq⟩ | ⟨b, hb, hq⟩
  · exact ⟨b, hq⟩
  · cases b with
    | nil => exact ⟨[], by simpa using hq.symm⟩
    | cons x rest =>
      rw [List.cons_append, List.cons.injEq] at hq
      have := hp x (by rw [hb]; simp)
      rw [← hq.1] at this
      simp [isDiag] at this

private theorem part_no_diag {s : RunSettings} {scaled : Bool} {asked : Prop}
    {file : String} {e : List RunEvent} (h : PartGives s scaled asked file e) :
    ∀ x ∈ e, isDiag x = false := by
  rcases h with ⟨-, use, rfl, -, hu⟩ | ⟨-, rfl⟩
  · intro x hx
    rcases List.mem_append.mp hx with a | a
    · rw [hu x a]
      rfl
    · rw [List.mem_singleton.mp a]
      rfl
  · simp

private theorem writes_no_diag (files : List String) :
    ∀ x ∈ files.map RunEvent.write, isDiag x = false := by
  intro x hx
  obtain ⟨f, -, rfl⟩ := List.mem_map.mp hx
  rfl

private theorem filesOf_writes (files : List String) : filesOf (files.map RunEvent.write) = files := by
  induction files with
  | nil => rfl
  | cons f rest ih =>
    unfold filesOf at ih ⊢
    rw [List.map_cons, List.filterMap_cons]
    simp only [ih]

private theorem filesOf_sym {e : List RunEvent} (h : e = [] ∨ e = [.symmetrized]) :
    filesOf e = [] := by
  rcases h with rfl | rfl <;> rfl

/-- C161, phonons: a run with computed lifetimes that ends well has written
exactly the files of the relaxation time approximation and of the solvers that
were asked for; each of these was written right after the full scattering
matrix was used for it, in the right form; nothing uses the matrix after the
diagonalisation destroyed it. -/
theorem C161_phonon_partial {s : RunSettings} {w : RunWorld} (hc : s.constantTime = none)
    (h0 : 0 < s.maxIterations) (hw : 0 < w.numStates) {ev : List RunEvent}
    (h : phononRun s w = .ok ev) :
    filesOf ev = phononFilesWanted s ∧
    (∀ x, Asked s x → Solved false x (phononFile x) ev) ∧
    (∀ before scaled n after, ev = before ++ .diagonalized scaled n :: after →
      ∀ e ∈ after, ∃ file, e = .write file) := by
  obtain ⟨e₀, e₁, e₂, e₃, e₄, rfl, g0, g1, g2, g3, g4⟩ := phonon_pieces hc h0 hw h
  refine ⟨?_, ?_, ?_⟩
  · have f0 : filesOf e₀ = if s.elph = "" then [] else
        ["rta_phel_relaxation_times.json", "rta_phph_relaxation_times.json"] := by
      rw [g0]
      split <;> rfl
    have f2 : filesOf e₂ = if "iterative" ∈ s.solvers then
        ["omini_phonon_thermal_cond.json"] else [] :=
      part_files (asked := "iterative" ∈ s.solvers) g2
    have f3 : filesOf e₃ = if "variational" ∈ s.solvers then
        ["variational_phonon_thermal_cond.json"] else [] :=
      part_files (asked := "variational" ∈ s.solvers) g3
    have f4 : filesOf e₄ = if "relaxons" ∈ s.solvers then ["ph_relaxons_real_space_coeffs.json",
        "relaxons_phonon_thermal_cond.json", "relaxons_relaxation_times.json",
        "relaxons_phonon_viscosity.json"] else [] := by
      rcases g4 with ⟨a, n, -, rfl⟩ | ⟨a, rfl⟩
      · exact (if_pos a).symm
      · exact (if_neg a).symm
    simp only [filesOf_append, f0, f2, f3, f4, filesOf_sym (g1.imp And.left And.left), filesOf_writes, List.append_nil]
    rfl
  · intro x a
    cases x with
    | iterative =>
      have := part_solved g2 (x := .iterative) (by simp) a
        (e₀ ++ phononRtaFiles.map .write ++ e₁) (e₃ ++ e₄)
      simpa only [phononFile, List.append_assoc] using this
    | variational =>
      have := part_solved g3 (x := .variational) (by simp) a
        (e₀ ++ phononRtaFiles.map .write ++ e₁ ++ e₂) e₄
      simpa only [phononFile, List.append_assoc] using this
    | relaxons =>
      rcases g4 with ⟨-, n, -, rfl⟩ | ⟨b, -⟩
      · exact ⟨e₀ ++ phononRtaFiles.map .write ++ e₁ ++ e₂ ++ e₃ ++
          [.rescaled, .product (.stored true), .write "ph_relaxons_real_space_coeffs.json"],
          [.diagonalized true n],
          [.write "relaxons_relaxation_times.json", .write "relaxons_phonon_viscosity.json"],
          by simp [phononFile], by simp, fun e he => ⟨n, List.mem_singleton.mp he⟩⟩
      · exact absurd a b
  · intro before scaled n after hev
    obtain ⟨b, hb⟩ := diag_last (pre := e₀ ++ phononRtaFiles.map .write ++ e₁ ++ e₂ ++ e₃) (by
      intro e he
      simp only [List.mem_append] at he
      rcases he with (((he | he) | he) | he) | he
      · rw [g0] at he
        split at he
        · simp at he
        · simp only [List.mem_cons, List.not_mem_nil, or_false] at he
          rcases he with rfl | rfl <;> rfl
      · exact writes_no_diag _ e he
      · rcases g1 with ⟨rfl, -⟩ | ⟨rfl, -⟩
        · simp at he
        · rw [List.mem_singleton.mp he]
          rfl
      · exact part_no_diag g2 e he
      · exact part_no_diag g3 e he) hev
    rcases g4 with ⟨-, m, -, rfl⟩ | ⟨-, rfl⟩
    · obtain ⟨c, hc'⟩ := diag_last
        (pre := [.rescaled, .product (.stored true), .write "ph_relaxons_real_space_coeffs.json"])
        (q := [.diagonalized true m, .write "relaxons_phonon_thermal_cond.json",
          .write "relaxons_relaxation_times.json", .write "relaxons_phonon_viscosity.json"])
        (by simp [isDiag]) (by simpa using hb)
      rcases c with - | ⟨x, rest⟩
      · simp only [List.nil_append, List.cons.injEq] at hc'
        rw [← hc'.2]
        simp
      · rw [List.cons_append, List.cons.injEq] at hc'
        have hm := hc'.2
        have : RunEvent.diagonalized scaled n ∈ ([.write "relaxons_phonon_thermal_cond.json",
          .write "relaxons_relaxation_times.json", .write "relaxons_phonon_viscosity.json"] :
            List RunEvent) := by
          rw [hm]
          simp
        simp at this
    · simp at hb

private theorem bind_exists {α β : Type} {x : Outcome α} {f : α → Outcome β} :
    (∃ b, (x >>= f) = .ok b) ↔ ∃ a, x = .ok a ∧ ∃ b, f a = .ok b := by
  constructor
  · rintro ⟨b, h⟩
    rw [Outcome.bind_eq_ok_iff] at h
    obtain ⟨a, ha, hb⟩ := h
    exact ⟨a, ha, b, hb⟩
  · rintro ⟨a, ha, b, hb⟩
    exact ⟨b, (Outcome.bind_eq_ok_iff _ _ _).mpr ⟨a, ha, hb⟩⟩

private theorem unit_exists {x : Outcome Unit} {p : Prop} :
    (∃ a, x = .ok a ∧ p) ↔ x = .ok () ∧ p :=
  ⟨fun ⟨_, h⟩ => h, fun h => ⟨(), h⟩⟩

private theorem onlyIf_exists {b : Bool} {x : Outcome (List RunEvent)} :
    (∃ e, onlyIf b x = .ok e) ↔ (b = true → ∃ e, x = .ok e) := by
  unfold onlyIf
  cases b <;> simp

private theorem phonon_requirements {s : RunSettings} : phononRequirements s = .ok () ↔
    s.fc2 ≠ "" ∧ s.qMesh.prod ≠ 0 ∧ s.fc3 ≠ "" ∧ s.temperatures ≠ [] ∧
    (s.smearingMethod = 0 → s.smearingWidth.isSome) ∧
    (s.elph ≠ "" → s.electronH0 ≠ "" ∧ s.kMesh.prod ≠ 0 ∧
      (s.dopings ≠ [] ∨ s.chemicalPotentials ≠ [])) := by
  unfold phononRequirements
  simp only [Outcome.bind_eq_ok_iff, unit_exists, require_ok, gridGiven, decide_eq_true_eq]
  by_cases he : s.elph = ""
  · rw [if_neg (by simpa using he)]
    simp only [he, ne_eq, not_true_eq_false, false_implies, and_true]
    by_cases hm : s.smearingMethod = 0 <;> simp [hm]
  · rw [if_pos he]
    simp only [Outcome.bind_eq_ok_iff, unit_exists, require_ok, decide_eq_true_eq, ne_eq, he,
      not_false_eq_true, true_implies]
    by_cases hm : s.smearingMethod = 0 <;> by_cases hd : s.dopings = [] <;>
      by_cases hp : s.chemicalPotentials = [] <;> simp [hm, hd, hp]

/-- C161, phonons: a run with computed lifetimes ends well exactly when its
input is complete and the solvers that are asked for can be run; otherwise it
ends with an error message, and never in undefined behaviour. -/
theorem C161_phonon_accepts {s : RunSettings} {w : RunWorld} (hc : s.constantTime = none)
    (h0 : 0 < s.maxIterations) (hw : 0 < w.numStates) :
    ((∃ ev, phononRun s w = .ok ev) ↔
      PhononInput s w ∧ SolversFit s w s.temperatures.length) ∧
    phononRun s w ≠ .ub ∧ phononRun s w ≠ .diverge := by
  constructor
  · unfold phononRun
    simp only [bind_exists, unit_exists]
    simp only [sanity_ok, phonon_requirements, require_ok]
    constructor
    · rintro ⟨hs, ⟨q1, q2, q3, q4, q5, q6⟩, -, hf, o, ho, o', ho', e₀, he₀, e₁, he₁, e₂, he₂, e₃, he₃,
        e₄, he₄, -⟩
      obtain ⟨sm, rfl⟩ := (make_ok hc false true).mp ho
      obtain ⟨mem, rfl⟩ := (setup_ok (s := s) (w := w) false _).mp ho'
      obtain ⟨c1, c2, c3, c4⟩ := checks_ok he₁
      rw [flags_eq] at he₂ he₃ he₄
      have i2 := onlyIf_exists.mp ⟨e₂, he₂⟩
      have i3 := onlyIf_exists.mp ⟨e₃, he₃⟩
      have i4 := onlyIf_exists.mp ⟨e₄, he₄⟩
      have elec : s.elph ≠ "" → w.electronsFit = true ∧ w.numMu = 1 ∧
          (s.smearingMethod = 0 ∨ s.smearingMethod = 1) := by
        intro he
        obtain ⟨e, hp⟩ := onlyIf_exists.mp ⟨e₀, he₀⟩ (by simpa using he)
        unfold phononElectronPart at hp
        simp only [Outcome.bind_eq_ok_iff, unit_exists] at hp
        simp only [require_ok] at hp
        obtain ⟨p1, p2, o, po, -⟩ := hp
        obtain ⟨psm, -⟩ := (make_ok hc true true).mp po
        refine ⟨p1, by simpa using p2, ?_⟩
        simpa using psm
      refine ⟨⟨q1, q3, q2, q4, ?_, hf, fun he => ?_⟩, ⟨c1, hs, c3, ?_, ?_, ?_⟩⟩
      · unfold SmearingFits
        by_cases he : s.elph = ""
        · simp only [he, ne_eq, not_true_eq_false, decide_false]
          rcases sm with h | h | h
          · exact .inl ⟨h, q5 h⟩
          · exact .inr (.inl h)
          · exact .inr (.inr ⟨h.1, trivial⟩)
        · rcases (elec he).2.2 with h | h
          · exact .inl ⟨h, q5 h⟩
          · exact .inr (.inl h)
      · obtain ⟨a, b, c⟩ := q6 he
        exact ⟨a, b, c, (elec he).1, (elec he).2.1⟩
      · intro a
        exact (iterative_part hw h0 false _).2.1.mp (i2 (by simpa [Asked, ExactSolver.name] using a))
      · intro a
        exact (variational_part hw h0 false _).2.1.mp
          (i3 (by simpa [Asked, ExactSolver.name] using a))
      · intro a
        have b := i4 (by simpa [Asked, ExactSolver.name] using a)
        rw [sym_off hs a] at b
        exact (relaxons_phonon hw (c1 a)).2.1.mp b
    · rintro ⟨⟨q1, q3, q2, q4, q5, hf, q6⟩, ⟨c1, hs, c3, c4, c5, c6⟩⟩
      have sm : s.smearingMethod = 0 ∨ s.smearingMethod = 1 ∨
          (s.smearingMethod = 2 ∧ s.elph = "") := by
        rcases q5 with h | h | h
        · exact .inl h.1
        · exact .inr (.inl h)
        · exact .inr (.inr ⟨h.1, by simpa using h.2⟩)
      have width : s.smearingMethod = 0 → s.smearingWidth.isSome = true := by
        intro a
        rcases q5 with h | h | h
        · exact h.2
        · omega
        · omega
      refine ⟨hs, ⟨q1, q2, q3, q4, width, fun he => ⟨(q6 he).1, (q6 he).2.1, (q6 he).2.2.1⟩⟩, by simp [q3],
        hf, ?_⟩
      refine ⟨_, (make_ok hc false true).mpr ⟨by
        rcases sm with h | h | h
        · exact .inl h
        · exact .inr (.inl h)
        · exact .inr (.inr ⟨h.1, rfl⟩), rfl⟩, ?_⟩
      have one : s.inMemory = true → s.temperatures.length ≤ 1 := fun a => by rw [c3 a]
      refine ⟨_, (setup_ok (s := s) (w := w) false _).mpr ⟨one, rfl⟩, ?_⟩
      obtain ⟨e₀, he₀⟩ : ∃ e, onlyIf (decide (s.elph ≠ "")) (phononElectronPart s w) = .ok e := by
        rw [onlyIf_exists]
        intro he
        have he : s.elph ≠ "" := by simpa using he
        obtain ⟨-, -, -, p1, p2⟩ := q6 he
        unfold phononElectronPart
        simp only [bind_exists, unit_exists]
        simp only [require_ok]
        refine ⟨p1, by simp [p2], _, (make_ok hc true true).mpr ⟨by
          rcases sm with h | h | h
          · exact .inl h
          · exact .inr (.inl h)
          · exact absurd h.2 he, rfl⟩, _, (setup_ok (s := s) (w := w) true _).mpr ⟨by
            rw [p2, Nat.mul_one]; exact one, rfl⟩, _, rfl⟩
      obtain ⟨e₁, he₁⟩ := checks_of (s := s) (sym := s.useSymmetries && w.manySymmetries)
        (numCalc := s.temperatures.length) c1 (fun a => by rw [hs a]; rfl) c3
      refine ⟨e₀, he₀, e₁, he₁, ?_⟩
      rw [flags_eq]
      obtain ⟨e₂, he₂⟩ : ∃ e, onlyIf (decide ("iterative" ∈ s.solvers))
          (iterativePart s w (readyObject s w false) "omini_phonon_thermal_cond.json") = .ok e := by
        rw [onlyIf_exists]
        intro a
        exact (iterative_part hw h0 false _).2.1.mpr (c4 (by simpa [Asked, ExactSolver.name] using a))
      obtain ⟨e₃, he₃⟩ : ∃ e, onlyIf (decide ("variational" ∈ s.solvers))
          (variationalPart s w (readyObject s w false) "variational_phonon_thermal_cond.json") =
            .ok e := by
        rw [onlyIf_exists]
        intro a
        exact (variational_part hw h0 false _).2.1.mpr
          (c5 (by simpa [Asked, ExactSolver.name] using a))
      obtain ⟨e₄, he₄⟩ : ∃ e, onlyIf (decide ("relaxons" ∈ s.solvers))
          (phononRelaxons s w (readyObject s w false) (s.useSymmetries && w.manySymmetries)) =
            .ok e := by
        rw [onlyIf_exists]
        intro a
        have asked : Asked s .relaxons := by simpa [Asked, ExactSolver.name] using a
        rw [sym_off hs asked]
        exact (relaxons_phonon hw (c1 asked)).2.1.mpr (c6 asked)
      exact ⟨e₂, he₂, e₃, he₃, e₄, he₄, _, rfl⟩
  · change Safe (phononRun s w)
    unfold phononRun
    refine safe_bind (safe_require _) fun _ hs => safe_bind ?_ fun _ _ =>
      safe_bind (safe_require _) fun _ _ => safe_bind (safe_require _) fun _ _ =>
      safe_bind (safe_make _ _ _) fun o ho => ?_
    · unfold phononRequirements
      refine safe_bind (safe_require _) fun _ _ => safe_bind (safe_require _) fun _ _ =>
        safe_bind (safe_require _) fun _ _ => safe_bind (safe_require _) fun _ _ =>
        safe_bind (safe_require _) fun _ _ => ?_
      split
      · exact safe_bind (safe_require _) fun _ _ => safe_bind (safe_require _) fun _ _ =>
          safe_require _
      · exact safe_ok _
    · obtain ⟨-, rfl⟩ := (make_ok hc false true).mp ho
      refine safe_bind (safe_setup (s := s) (w := w) false _) fun o' ho' => ?_
      obtain ⟨-, rfl⟩ := (setup_ok (s := s) (w := w) false _).mp ho'
      refine safe_bind (safe_onlyIf fun _ => ?_) fun _ _ =>
        safe_bind (safe_checks _ _ _ _) fun _ hch =>
        safe_bind (safe_onlyIf fun _ => (iterative_part hw h0 false _).1) fun _ _ =>
        safe_bind (safe_onlyIf fun _ => (variational_part hw h0 false _).1) fun _ _ =>
        safe_bind (safe_onlyIf fun a => ?_) fun _ _ => safe_ok _
      · unfold phononElectronPart
        refine safe_bind (safe_require _) fun _ _ => safe_bind (safe_require _) fun _ _ =>
          safe_bind (safe_make _ _ _) fun o ho => ?_
        obtain ⟨-, rfl⟩ := (make_ok hc true true).mp ho
        exact safe_bind (safe_setup (s := s) (w := w) true _) fun _ _ => safe_ok _
      · rw [flags_eq] at a
        have asked : Asked s .relaxons := by simpa [Asked, ExactSolver.name] using a
        rw [sym_off (sanity_ok.mp hs) asked]
        exact (relaxons_phonon hw ((checks_ok hch).1 asked)).1

/-- The pieces of an electron run with computed lifetimes. -/
private theorem electron_pieces {s : RunSettings} {w : RunWorld} (hc : s.constantTime = none)
    (h0 : 0 < s.maxIterations) (hw : 0 < w.numStates) {ev : List RunEvent}
    (h : electronRun s w = .ok ev) :
    ∃ e₁ e₂ e₃ e₄, ev = electronRtaFiles.map .write ++ e₁ ++ e₂ ++ e₃ ++ e₄ ∧
      ((e₁ = [] ∧ ¬ SymmetrizeWanted s w) ∨ (e₁ = [.symmetrized] ∧ SymmetrizeWanted s w)) ∧
      PartGives s true (Asked s .iterative) "omini_onsager_coefficients.json" e₂ ∧
      PartGives s true (Asked s .variational) "variational_onsager_coefficients.json" e₃ ∧
      ((Asked s .relaxons ∧ ∃ n, n = relaxonsWanted s w ∧ e₄ =
        [.product (.stored true), .write "el_relaxons_real_space_coeffs.json",
        .diagonalized true n, .write "relaxons_onsager_coefficients.json",
        .write "exact_relaxation_times.json", .write "relaxons_electron_viscosity.json"]) ∨
        (¬ Asked s .relaxons ∧ e₄ = [])) := by
  unfold electronRun at h
  simp only [hc, Option.isNone_none, Bool.not_true, Bool.false_eq_true, if_false] at h
  rw [Outcome.bind_eq_ok_iff] at h
  obtain ⟨_, hs, h⟩ := h
  rw [sanity_ok] at hs
  rw [Outcome.bind_eq_ok_iff] at h
  obtain ⟨_, _, h⟩ := h
  rw [Outcome.bind_eq_ok_iff] at h
  obtain ⟨_, _, h⟩ := h
  rw [Outcome.bind_eq_ok_iff] at h
  obtain ⟨o, ho, h⟩ := h
  obtain ⟨_, rfl⟩ := (make_ok hc true true).mp ho
  rw [Outcome.bind_eq_ok_iff] at h
  obtain ⟨o, ho', h⟩ := h
  obtain ⟨_, rfl⟩ := (setup_ok (s := s) (w := w) true _).mp ho'
  rw [Outcome.bind_eq_ok_iff] at h
  obtain ⟨e₁, he₁, h⟩ := h
  rw [Outcome.bind_eq_ok_iff] at h
  obtain ⟨e₂, he₂, h⟩ := h
  rw [Outcome.bind_eq_ok_iff] at h
  obtain ⟨e₃, he₃, h⟩ := h
  rw [Outcome.bind_eq_ok_iff] at h
  obtain ⟨e₄, he₄, h⟩ := h
  rw [Outcome.ok.injEq] at h
  obtain ⟨c1, c2, c3, c4⟩ := checks_ok he₁
  rw [flags_eq] at he₂ he₃ he₄
  rw [onlyIf_ok] at he₂ he₃ he₄
  refine ⟨e₁, e₂, e₃, e₄, h.symm, c4.imp (fun a => ⟨a.1, by rw [wanted_iff]; exact a.2⟩) (fun a => ⟨a.1, by rw [wanted_iff]; exact a.2⟩), ?_, ?_, ?_⟩
  · rcases he₂ with ⟨a, b⟩ | ⟨a, b⟩
    · exact .inl ⟨by simpa [Asked, ExactSolver.name] using a, (iterative_part hw h0 true _).2.2 _ b⟩
    · exact .inr ⟨by simpa [Asked, ExactSolver.name] using a, b⟩
  · rcases he₃ with ⟨a, b⟩ | ⟨a, b⟩
    · obtain ⟨use, h1, h2, h3⟩ := (variational_part hw h0 true _).2.2 _ b
      exact .inl ⟨by simpa [Asked, ExactSolver.name] using a, use, h1,
        fun hn => by rw [hn] at h2; simp at h2, h3⟩
    · exact .inr ⟨by simpa [Asked, ExactSolver.name] using a, b⟩
  · rcases he₄ with ⟨a, b⟩ | ⟨a, b⟩
    · have asked : Asked s .relaxons := by simpa [Asked, ExactSolver.name] using a
      rw [sym_off hs asked] at b
      exact .inl ⟨asked, (relaxons_electron hw (c1 asked)).2.2 _ b⟩
    · exact .inr ⟨by simpa [Asked, ExactSolver.name] using a, b⟩

/-- C161, electrons: the same for a run with computed lifetimes; the matrix of
electrons is built in the scaled form, in which all the solvers use it. -/
theorem C161_electron_partial {s : RunSettings} {w : RunWorld} (hc : s.constantTime = none)
    (h0 : 0 < s.maxIterations) (hw : 0 < w.numStates) {ev : List RunEvent}
    (h : electronRun s w = .ok ev) :
    filesOf ev = electronFilesWanted s ∧
    (∀ x, Asked s x → Solved true x (electronFile x) ev) ∧
    (∀ before scaled n after, ev = before ++ .diagonalized scaled n :: after →
      ∀ e ∈ after, ∃ file, e = .write file) := by
  obtain ⟨e₁, e₂, e₃, e₄, rfl, g1, g2, g3, g4⟩ := electron_pieces hc h0 hw h
  refine ⟨?_, ?_, ?_⟩
  · have f2 : filesOf e₂ = if "iterative" ∈ s.solvers then
        ["omini_onsager_coefficients.json"] else [] :=
      part_files (asked := "iterative" ∈ s.solvers) g2
    have f3 : filesOf e₃ = if "variational" ∈ s.solvers then
        ["variational_onsager_coefficients.json"] else [] :=
      part_files (asked := "variational" ∈ s.solvers) g3
    have f4 : filesOf e₄ = if "relaxons" ∈ s.solvers then ["el_relaxons_real_space_coeffs.json",
        "relaxons_onsager_coefficients.json", "exact_relaxation_times.json",
        "relaxons_electron_viscosity.json"] else [] := by
      rcases g4 with ⟨a, n, -, rfl⟩ | ⟨a, rfl⟩
      · exact (if_pos a).symm
      · exact (if_neg a).symm
    simp only [filesOf_append, f2, f3, f4, filesOf_sym (g1.imp And.left And.left), filesOf_writes, List.append_nil]
    rfl
  · intro x a
    cases x with
    | iterative =>
      have := part_solved g2 (x := .iterative) (by simp) a
        (electronRtaFiles.map .write ++ e₁) (e₃ ++ e₄)
      simpa only [electronFile, List.append_assoc] using this
    | variational =>
      have := part_solved g3 (x := .variational) (by simp) a
        (electronRtaFiles.map .write ++ e₁ ++ e₂) e₄
      simpa only [electronFile, List.append_assoc] using this
    | relaxons =>
      rcases g4 with ⟨-, n, -, rfl⟩ | ⟨b, -⟩
      · exact ⟨electronRtaFiles.map .write ++ e₁ ++ e₂ ++ e₃ ++
          [.product (.stored true), .write "el_relaxons_real_space_coeffs.json"],
          [.diagonalized true n],
          [.write "exact_relaxation_times.json", .write "relaxons_electron_viscosity.json"],
          by simp [electronFile], by simp, fun e he => ⟨n, List.mem_singleton.mp he⟩⟩
      · exact absurd a b
  · intro before scaled n after hev
    obtain ⟨b, hb⟩ := diag_last (pre := electronRtaFiles.map .write ++ e₁ ++ e₂ ++ e₃) (by
      intro e he
      simp only [List.mem_append] at he
      rcases he with ((he | he) | he) | he
      · exact writes_no_diag _ e he
      · rcases g1 with ⟨rfl, -⟩ | ⟨rfl, -⟩
        · simp at he
        · rw [List.mem_singleton.mp he]
          rfl
      · exact part_no_diag g2 e he
      · exact part_no_diag g3 e he) hev
    rcases g4 with ⟨-, m, -, rfl⟩ | ⟨-, rfl⟩
    · obtain ⟨c, hc'⟩ := diag_last
        (pre := [.product (.stored true), .write "el_relaxons_real_space_coeffs.json"])
        (q := [.diagonalized true m, .write "relaxons_onsager_coefficients.json",
          .write "exact_relaxation_times.json", .write "relaxons_electron_viscosity.json"])
        (by simp [isDiag]) (by simpa using hb)
      rcases c with - | ⟨x, rest⟩
      · simp only [List.nil_append, List.cons.injEq] at hc'
        rw [← hc'.2]
        simp
      · rw [List.cons_append, List.cons.injEq] at hc'
        have hm := hc'.2
        have : RunEvent.diagonalized scaled n ∈ ([.write "relaxons_onsager_coefficients.json",
          .write "exact_relaxation_times.json", .write "relaxons_electron_viscosity.json"] :
            List RunEvent) := by
          rw [hm]
          simp
        simp at this
    · simp at hb

private theorem electron_requirements {s : RunSettings} (hc : s.constantTime = none) :
    electronRequirements s = .ok () ↔
    s.electronH0 ≠ "" ∧ s.kMesh.prod ≠ 0 ∧ s.temperatures ≠ [] ∧ s.elph ≠ "" ∧
    (s.smearingMethod = 0 → s.smearingWidth.isSome) ∧
    (s.dopings ≠ [] ∨ s.chemicalPotentials ≠ [] ∨ s.chemicalPotentialRange = true) := by
  unfold electronRequirements
  simp only [hc, Option.isNone_none, if_true]
  simp only [Outcome.bind_eq_ok_iff, unit_exists]
  simp only [require_ok, gridGiven, decide_eq_true_eq]
  by_cases hm : s.smearingMethod = 0 <;> by_cases hd : s.dopings = [] <;>
    by_cases hp : s.chemicalPotentials = [] <;> simp [hm, hd, hp, and_assoc]

/-- C161, electrons: a run with computed lifetimes ends well exactly when its
input is complete and the solvers that are asked for can be run; otherwise it
ends with an error message, and never in undefined behaviour. -/
theorem C161_electron_accepts {s : RunSettings} {w : RunWorld} (hc : s.constantTime = none)
    (h0 : 0 < s.maxIterations) (hw : 0 < w.numStates) :
    ((∃ ev, electronRun s w = .ok ev) ↔
      ElectronInput s w ∧ SolversFit s w (s.temperatures.length * w.numMu)) ∧
    electronRun s w ≠ .ub ∧ electronRun s w ≠ .diverge := by
  have unfolded : electronRun s w = (do
      inputSanityCheck s
      electronRequirements s
      require w.filesRead
      let o ← makeScattering s true true
      let o ← setupScattering o (s.temperatures.length * w.numMu) w.numStates
      let e₁ ← solverChecks s (solverFlags s.solvers) (s.useSymmetries && w.manySymmetries)
        (s.temperatures.length * w.numMu)
      let e₂ ← onlyIf (solverFlags s.solvers).iterative
        (iterativePart s w o "omini_onsager_coefficients.json")
      let e₃ ← onlyIf (solverFlags s.solvers).variational
        (variationalPart s w o "variational_onsager_coefficients.json")
      let e₄ ← onlyIf (solverFlags s.solvers).relaxons
        (electronRelaxons s w o (s.useSymmetries && w.manySymmetries))
      .ok (electronRtaFiles.map .write ++ e₁ ++ e₂ ++ e₃ ++ e₄)) := by
    unfold electronRun
    simp only [hc, Option.isNone_none, Bool.not_true, Bool.false_eq_true, if_false]
    rfl
  rw [unfolded]
  constructor
  · simp only [bind_exists, unit_exists]
    simp only [sanity_ok, electron_requirements hc, require_ok]
    constructor
    · rintro ⟨hs, ⟨q1, q2, q3, q4, q5, q6⟩, hf, o, ho, o', ho', e₁, he₁, e₂, he₂, e₃, he₃,
        e₄, he₄, -⟩
      obtain ⟨sm, rfl⟩ := (make_ok hc true true).mp ho
      obtain ⟨mem, rfl⟩ := (setup_ok (s := s) (w := w) true _).mp ho'
      obtain ⟨c1, c2, c3, c4⟩ := checks_ok he₁
      rw [flags_eq] at he₂ he₃ he₄
      have i2 := onlyIf_exists.mp ⟨e₂, he₂⟩
      have i3 := onlyIf_exists.mp ⟨e₃, he₃⟩
      have i4 := onlyIf_exists.mp ⟨e₄, he₄⟩
      refine ⟨⟨q1, q4, q2, q3, ?_, hf, q6⟩, ⟨c1, hs, c3, ?_, ?_, ?_⟩⟩
      · unfold SmearingFits
        rcases sm with h | h | h
        · exact .inl ⟨h, q5 h⟩
        · exact .inr (.inl h)
        · exact absurd h.2 (by simp)
      · intro a
        exact (iterative_part hw h0 true _).2.1.mp (i2 (by simpa [Asked, ExactSolver.name] using a))
      · intro a
        exact (variational_part hw h0 true _).2.1.mp
          (i3 (by simpa [Asked, ExactSolver.name] using a))
      · intro a
        have b := i4 (by simpa [Asked, ExactSolver.name] using a)
        rw [sym_off hs a] at b
        exact (relaxons_electron hw (c1 a)).2.1.mp b
    · rintro ⟨⟨q1, q4, q2, q3, q5, hf, q6⟩, ⟨c1, hs, c3, c4, c5, c6⟩⟩
      have sm : s.smearingMethod = 0 ∨ s.smearingMethod = 1 := by
        rcases q5 with h | h | h
        · exact .inl h.1
        · exact .inr h
        · exact absurd h.2 (by simp)
      have width : s.smearingMethod = 0 → s.smearingWidth.isSome = true := by
        intro a
        rcases q5 with h | h | h
        · exact h.2
        · omega
        · omega
      refine ⟨hs, ⟨q1, q2, q3, q4, width, q6⟩, hf, ?_⟩
      refine ⟨_, (make_ok hc true true).mpr ⟨by
        rcases sm with h | h
        · exact .inl h
        · exact .inr (.inl h), rfl⟩, ?_⟩
      refine ⟨_, (setup_ok (s := s) (w := w) true _).mpr ⟨fun a => by rw [c3 a], rfl⟩, ?_⟩
      obtain ⟨e₁, he₁⟩ := checks_of (s := s) (sym := s.useSymmetries && w.manySymmetries)
        (numCalc := s.temperatures.length * w.numMu) c1 (fun a => by rw [hs a]; rfl) c3
      refine ⟨e₁, he₁, ?_⟩
      rw [flags_eq]
      obtain ⟨e₂, he₂⟩ : ∃ e, onlyIf (decide ("iterative" ∈ s.solvers))
          (iterativePart s w (readyObject s w true) "omini_onsager_coefficients.json") = .ok e := by
        rw [onlyIf_exists]
        intro a
        exact (iterative_part hw h0 true _).2.1.mpr (c4 (by simpa [Asked, ExactSolver.name] using a))
      obtain ⟨e₃, he₃⟩ : ∃ e, onlyIf (decide ("variational" ∈ s.solvers))
          (variationalPart s w (readyObject s w true) "variational_onsager_coefficients.json") =
            .ok e := by
        rw [onlyIf_exists]
        intro a
        exact (variational_part hw h0 true _).2.1.mpr
          (c5 (by simpa [Asked, ExactSolver.name] using a))
      obtain ⟨e₄, he₄⟩ : ∃ e, onlyIf (decide ("relaxons" ∈ s.solvers))
          (electronRelaxons s w (readyObject s w true) (s.useSymmetries && w.manySymmetries)) =
            .ok e := by
        rw [onlyIf_exists]
        intro a
        have asked : Asked s .relaxons := by simpa [Asked, ExactSolver.name] using a
        rw [sym_off hs asked]
        exact (relaxons_electron hw (c1 asked)).2.1.mpr (c6 asked)
      exact ⟨e₂, he₂, e₃, he₃, e₄, he₄, _, rfl⟩
  · refine show Safe _ from safe_bind (safe_require _) fun _ hs => safe_bind ?_ fun _ _ =>
      safe_bind (safe_require _) fun _ _ => safe_bind (safe_make _ _ _) fun o ho => ?_
    · unfold electronRequirements
      refine safe_bind (safe_require _) fun _ _ => safe_bind (safe_require _) fun _ _ =>
        safe_bind (safe_require _) fun _ _ => ?_
      split
      · exact safe_bind (safe_require _) fun _ _ => safe_bind (safe_require _) fun _ _ =>
          safe_require _
      · exact safe_bind (safe_require _) fun _ _ => safe_require _
    · obtain ⟨-, rfl⟩ := (make_ok hc true true).mp ho
      refine safe_bind (safe_setup (s := s) (w := w) true _) fun o' ho' => ?_
      obtain ⟨-, rfl⟩ := (setup_ok (s := s) (w := w) true _).mp ho'
      refine safe_bind (safe_checks _ _ _ _) fun _ hch =>
        safe_bind (safe_onlyIf fun _ => (iterative_part hw h0 true _).1) fun _ _ =>
        safe_bind (safe_onlyIf fun _ => (variational_part hw h0 true _).1) fun _ _ =>
        safe_bind (safe_onlyIf fun a => ?_) fun _ _ => safe_ok _
      rw [flags_eq] at a
      have asked : Asked s .relaxons := by simpa [Asked, ExactSolver.name] using a
      rw [sym_off (sanity_ok.mp hs) asked]
      exact (relaxons_electron hw ((checks_ok hch).1 asked)).1

private theorem before_sym {pre post before after : List RunEvent}
    (hp : ∀ e ∈ pre, ∃ f, e = .write f) (hq : .symmetrized ∉ post)
    (h : pre ++ .symmetrized :: post = before ++ .symmetrized :: after) :
    ∀ e ∈ before, ∃ f, e = .write f := by
  rcases List.append_eq_append_iff.mp h with ⟨b, hb, hq'⟩ | ⟨b, hb, -⟩
  · cases b with
    | nil =>
      rw [List.append_nil] at hb
      rw [hb]
      exact hp
    | cons x rest =>
      rw [List.cons_append, List.cons.injEq] at hq'
      exact absurd (by rw [hq'.2]; simp) hq
  · intro e he
    exact hp e (by rw [hb]; exact List.mem_append_left _ he)

private theorem part_no_sym {s : RunSettings} {scaled : Bool} {asked : Prop}
    {file : String} {e : List RunEvent} (h : PartGives s scaled asked file e) :
    .symmetrized ∉ e := by
  rcases h with ⟨-, use, rfl, -, hu⟩ | ⟨-, rfl⟩
  · intro hx
    rcases List.mem_append.mp hx with a | a
    · exact absurd (hu _ a) (by simp)
    · simp at a
  · simp

/-- What follows from the pieces of a run: `pre` the files before the solvers,
`e₄` the relaxons. -/
private theorem matrix_pieces {s : RunSettings} {w : RunWorld} {scaled : Bool} {a b : Prop}
    {f g : String} {pre e₁ e₂ e₃ e₄ : List RunEvent} (hp : ∀ e ∈ pre, ∃ f, e = .write f)
    (g1 : (e₁ = [] ∧ ¬ SymmetrizeWanted s w) ∨ (e₁ = [.symmetrized] ∧ SymmetrizeWanted s w))
    (g2 : PartGives s scaled a f e₂) (g3 : PartGives s scaled b g e₃)
    (g4 : ∀ e ∈ e₄, e ≠ .symmetrized ∧ ∀ c n, e = .diagonalized c n → n = relaxonsWanted s w) :
    (.symmetrized ∈ pre ++ e₁ ++ e₂ ++ e₃ ++ e₄ ↔ SymmetrizeWanted s w) ∧
    (∀ before after, pre ++ e₁ ++ e₂ ++ e₃ ++ e₄ = before ++ .symmetrized :: after →
      ∀ e ∈ before, ∃ file, e = .write file) ∧
    (∀ c n, .diagonalized c n ∈ pre ++ e₁ ++ e₂ ++ e₃ ++ e₄ → n = relaxonsWanted s w) := by
  have n2 := part_no_sym g2
  have n3 := part_no_sym g3
  have n4 : .symmetrized ∉ e₄ := fun h => (g4 _ h).1 rfl
  have np : .symmetrized ∉ pre := fun h => by obtain ⟨f, hf⟩ := hp _ h; simp at hf
  refine ⟨?_, ?_, ?_⟩
  · rcases g1 with ⟨rfl, hn⟩ | ⟨rfl, hy⟩
    · exact ⟨fun h => by simp [n2, n3, n4, np] at h, fun h => absurd h hn⟩
    · exact ⟨fun _ => hy, fun _ => by simp⟩
  · intro before after h
    rcases g1 with ⟨rfl, -⟩ | ⟨rfl, -⟩
    · have : RunEvent.symmetrized ∈ pre ++ [] ++ e₂ ++ e₃ ++ e₄ := by rw [h]; simp
      simp [n2, n3, n4, np] at this
    · exact before_sym (post := e₂ ++ e₃ ++ e₄) hp (by simp [n2, n3, n4]) (by simpa using h)
  · intro c n h
    simp only [List.mem_append] at h
    rcases h with (((h | h) | h) | h) | h
    · obtain ⟨f, hf⟩ := hp _ h
      simp at hf
    · rcases g1 with ⟨rfl, -⟩ | ⟨rfl, -⟩ <;> simp at h
    · exact absurd (part_no_diag g2 _ h) (by simp [isDiag])
    · exact absurd (part_no_diag g3 _ h) (by simp [isDiag])
    · exact (g4 _ h).2 _ _ rfl

private theorem writes_only (files : List String) :
    ∀ e ∈ files.map RunEvent.write, ∃ f, e = .write f := by
  intro x hx
  obtain ⟨f, -, rfl⟩ := List.mem_map.mp hx
  exact ⟨f, rfl⟩

/-- C161, phonons: the matrix is made symmetric exactly when this was asked for
and an exact solver uses a matrix that is in memory and not reduced by
symmetries; this happens before every use of the matrix.  The number of
relaxons is the one asked for. -/
theorem C161_phonon_matrix {s : RunSettings} {w : RunWorld} (hc : s.constantTime = none)
    (h0 : 0 < s.maxIterations) (hw : 0 < w.numStates) {ev : List RunEvent}
    (h : phononRun s w = .ok ev) :
    (.symmetrized ∈ ev ↔ SymmetrizeWanted s w) ∧
    (∀ before after, ev = before ++ .symmetrized :: after →
      ∀ e ∈ before, ∃ file, e = .write file) ∧
    (∀ scaled n, .diagonalized scaled n ∈ ev → n = relaxonsWanted s w) := by
  obtain ⟨e₀, e₁, e₂, e₃, e₄, rfl, g0, g1, g2, g3, g4⟩ := phonon_pieces hc h0 hw h
  refine matrix_pieces ?_ g1 g2 g3 ?_
  · intro e he
    rcases List.mem_append.mp he with he | he
    · rw [g0] at he
      split at he
      · simp at he
      · simp only [List.mem_cons, List.not_mem_nil, or_false] at he
        rcases he with rfl | rfl <;> exact ⟨_, rfl⟩
    · exact writes_only _ e he
  · rcases g4 with ⟨-, m, hm, rfl⟩ | ⟨-, rfl⟩
    · simp [hm]
    · simp

/-- C161, electrons: the same. -/
theorem C161_electron_matrix {s : RunSettings} {w : RunWorld} (hc : s.constantTime = none)
    (h0 : 0 < s.maxIterations) (hw : 0 < w.numStates) {ev : List RunEvent}
    (h : electronRun s w = .ok ev) :
    (.symmetrized ∈ ev ↔ SymmetrizeWanted s w) ∧
    (∀ before after, ev = before ++ .symmetrized :: after →
      ∀ e ∈ before, ∃ file, e = .write file) ∧
    (∀ scaled n, .diagonalized scaled n ∈ ev → n = relaxonsWanted s w) := by
  obtain ⟨e₁, e₂, e₃, e₄, rfl, g1, g2, g3, g4⟩ := electron_pieces hc h0 hw h
  refine matrix_pieces (writes_only _) g1 g2 g3 ?_
  rcases g4 with ⟨-, m, hm, rfl⟩ | ⟨-, rfl⟩
  · simp [hm]
  · simp

/-- C161, electrons with a positive constant relaxation time: the run ends well
exactly when its input is complete, without need of the interaction or of a
smearing; it then has written the files of the relaxation time approximation
and done nothing with a scattering matrix, whatever solvers are in the list.
Otherwise it ends with an error message. -/
theorem C161_electron_constant {s : RunSettings} {w : RunWorld} {x : ℚ}
    (hc : s.constantTime = some x) (hx : 0 < x) :
    (∀ ev, electronRun s w = .ok ev ↔ ev = electronRtaFiles.map .write ∧
      s.electronH0 ≠ "" ∧ s.kMesh.prod ≠ 0 ∧ s.temperatures ≠ [] ∧ w.filesRead = true ∧
      (s.numOccupied.isSome ∨ s.fermiLevel.isSome) ∧
      (s.dopings ≠ [] ∨ s.chemicalPotentials ≠ [] ∨ s.chemicalPotentialRange = true) ∧
      (Asked s .variational ∨ Asked s .relaxons → s.useSymmetries = false)) ∧
    electronRun s w ≠ .ub ∧ electronRun s w ≠ .diverge := by
  have crt : isConstantRTA s = true := by
    unfold isConstantRTA
    rw [hc]
    simpa using hx
  have unfolded : electronRun s w = (do
      inputSanityCheck s
      electronRequirements s
      require w.filesRead
      .ok (electronRtaFiles.map .write)) := by
    unfold electronRun
    simp only [hc, Option.isNone_some, Bool.not_false, if_true, makeScattering, crt,
      setupScattering, Outcome.bind_eq, Outcome.bind_ok]
    rfl
  have needed : electronRequirements s = .ok () ↔ s.electronH0 ≠ "" ∧ s.kMesh.prod ≠ 0 ∧
      s.temperatures ≠ [] ∧ (s.numOccupied.isSome ∨ s.fermiLevel.isSome) ∧
      (s.dopings ≠ [] ∨ s.chemicalPotentials ≠ [] ∨ s.chemicalPotentialRange = true) := by
    unfold electronRequirements
    simp only [hc, Option.isNone_some, Bool.false_eq_true, if_false]
    simp only [Outcome.bind_eq_ok_iff, unit_exists]
    simp only [require_ok, gridGiven, decide_eq_true_eq, Bool.or_eq_true]
    by_cases hd : s.dopings = [] <;> by_cases hp : s.chemicalPotentials = [] <;> simp [hd, hp]
  rw [unfolded]
  constructor
  · intro ev
    simp only [Outcome.bind_eq_ok_iff, unit_exists]
    simp only [sanity_ok, needed, require_ok, Outcome.ok.injEq]
    constructor
    · rintro ⟨a, ⟨b1, b2, b3, b4, b5⟩, c, d⟩
      exact ⟨d.symm, b1, b2, b3, c, b4, b5, a⟩
    · rintro ⟨d, b1, b2, b3, c, b4, b5, a⟩
      exact ⟨a, ⟨b1, b2, b3, b4, b5⟩, c, d.symm⟩
  · refine show Safe _ from safe_bind (safe_require _) fun _ hs => safe_bind ?_ fun _ _ =>
      safe_bind (safe_require _) fun _ _ => safe_ok _
    unfold electronRequirements
    refine safe_bind (safe_require _) fun _ _ => safe_bind (safe_require _) fun _ _ =>
      safe_bind (safe_require _) fun _ _ => ?_
    split
    · exact safe_bind (safe_require _) fun _ _ => safe_bind (safe_require _) fun _ _ =>
        safe_require _
    · exact safe_bind (safe_require _) fun _ _ => safe_require _

/-! ## Concrete runs -/

/-- A complete input for phonons. -/
private def exampleSettings : RunSettings :=
  { fc2 := "silicon.fc", fc3 := "FORCE_CONSTANTS_3RD", elph := "", electronH0 := "",
    qMesh := [5, 5, 5], kMesh := [0, 0, 0], temperatures := [300], dopings := [],
    chemicalPotentials := [], chemicalPotentialRange := false, smearingMethod := 1,
    smearingWidth := none, constantTime := none, numOccupied := none, fermiLevel := none,
    solvers := ["variational", "relaxons"], useSymmetries := false, inMemory := true,
    symmetrize := true, maxIterations := 50, numRelaxons := 0 }

/-- Its files are read, and its iterations converge at the fifth step. -/
private def exampleWorld : RunWorld :=
  { filesRead := true, manySymmetries := true, numStates := 750, numMu := 1, electronsFit := true,
    ominiConverged := fun i => i == 4, cgConverged := fun i => i == 4 }

private def exampleElectrons : RunSettings :=
  { exampleSettings with
    fc3 := "", elph := "silicon.phoebe.elph.hdf5", electronH0 := "si_tb.dat", kMesh := [5, 5, 5],
    dopings := [1], solvers := ["iterative"], inMemory := false }

/-- The hypotheses of the theorems on phonons can be met, with two solvers. -/
example : exampleSettings.constantTime = none ∧ 0 < exampleSettings.maxIterations ∧
    0 < exampleWorld.numStates ∧ ∃ ev, phononRun exampleSettings exampleWorld = .ok ev := by
  refine ⟨rfl, by decide, by decide, ?_⟩
  rw [(C161_phonon_accepts rfl (by decide) (by decide)).1]
  refine ⟨⟨by decide, by decide, by decide, by simp [exampleSettings], .inr (.inl rfl), rfl, ?_⟩, ?_⟩
  · intro h
    exact absurd rfl h
  · refine ⟨fun _ => rfl, fun _ => rfl, fun _ => rfl, ?_, fun _ => ⟨4, by decide, rfl⟩,
      fun _ => by decide⟩
    intro h
    simp [Asked, ExactSolver.name, exampleSettings] at h

/-- A run in which the matrix has to be made symmetric, and ends well. -/
example : SymmetrizeWanted { exampleSettings with symmetrize := true } exampleWorld ∧
    relaxonsWanted { exampleSettings with numRelaxons := 1 } exampleWorld = some 1 ∧
    ∃ ev, phononRun { exampleSettings with symmetrize := true } exampleWorld = .ok ev :=
  ⟨⟨rfl, rfl, by decide, .relaxons, by simp [Asked, ExactSolver.name, exampleSettings]⟩, rfl, _, rfl⟩

/-- The hypotheses of the theorems on electrons can be met. -/
example : exampleElectrons.constantTime = none ∧ 0 < exampleElectrons.maxIterations ∧
    0 < exampleWorld.numStates ∧ ∃ ev, electronRun exampleElectrons exampleWorld = .ok ev := by
  refine ⟨rfl, by decide, by decide, ?_⟩
  rw [(C161_electron_accepts rfl (by decide) (by decide)).1]
  refine ⟨⟨by decide, by decide, by decide, by simp [exampleElectrons, exampleSettings],
    .inr (.inl rfl), rfl, .inl (by simp [exampleElectrons])⟩, ?_⟩
  refine ⟨?_, ?_, ?_, fun _ => ⟨4, by decide, rfl⟩, ?_, ?_⟩
  all_goals
    intro h
    simp [Asked, ExactSolver.name, exampleElectrons] at h

/-- The hypotheses of the theorem on a constant time can be met, with a solver
in the list. -/
example : ∃ ev, electronRun { exampleElectrons with constantTime := some 10, fermiLevel := some 1 }
    exampleWorld = .ok ev := ⟨_, rfl⟩

/-- C161 is violated: a solver whose name is not known is ignored without a
word, and the run ends well. -/
theorem C161_violated_name :
    ∃ ev, phononRun { exampleSettings with solvers := ["Relaxons"] } exampleWorld = .ok ev ∧
      filesOf ev = phononRtaFiles :=
  ⟨_, rfl, rfl⟩

/-- C161 is violated: with no iteration allowed, the file of the iterative
solver is written although the scattering matrix was never used. -/
theorem C161_violated_iterations :
    ∃ ev, phononRun { exampleSettings with solvers := ["iterative"], maxIterations := 0 }
        exampleWorld = .ok ev ∧ .write "omini_phonon_thermal_cond.json" ∈ ev ∧
      ∀ src, .product src ∉ ev := by
  refine ⟨_, rfl, by simp, ?_⟩
  intro src h
  simp [exampleSettings] at h

/-- C161 is violated: phonons with a constant relaxation time and an exact
solver.  If the matrix is not in memory, its rates are computed through a
pointer that was never assigned. -/
theorem C161_violated_phonon_constant :
    phononRun { exampleSettings with
      constantTime := some 1, solvers := ["iterative"], inMemory := false } exampleWorld = .ub :=
  rfl

/-- C161 is violated: if the matrix is in memory, it has no elements, and the
variational solver writes a result obtained with a zero matrix. -/
theorem C161_violated_phonon_empty :
    ∃ ev, phononRun { exampleSettings with constantTime := some 1, solvers := ["variational"] }
        exampleWorld = .ok ev ∧ .write "variational_phonon_thermal_cond.json" ∈ ev ∧
      ∀ src, .product src ∈ ev → src = .empty := by
  refine ⟨_, rfl, by simp, ?_⟩
  intro src h
  simp [exampleSettings] at h
  exact h

/-- C161 is violated: electrons with a constant relaxation time that is not
positive.  The interaction is not read, but the rates are computed. -/
theorem C161_violated_electron_constant :
    electronRun { exampleElectrons with constantTime := some 0, fermiLevel := some 1 }
      exampleWorld = .ub :=
  rfl

end Verif.Props
