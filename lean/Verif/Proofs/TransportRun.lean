import Verif.Proofs.Bands
import Verif.Spec.TransportRun

/-!
# Lemmas for the transport runs (C161)
-/

namespace Verif.Proofs

open Verif.Model Verif.Spec

theorem require_ok {b : Bool} {u : Unit} : require b = .ok u ↔ b = true := by
  unfold require
  cases b <;> simp

/-- An outcome that is a value or an error message. -/
def Safe {α : Type} (x : Outcome α) : Prop := x ≠ .ub ∧ x ≠ .diverge

theorem safe_ok {α : Type} (a : α) : Safe (.ok a : Outcome α) := ⟨by simp, by simp⟩

theorem safe_error {α : Type} : Safe (.error : Outcome α) := ⟨by simp, by simp⟩

theorem safe_require (b : Bool) : Safe (require b) := by
  unfold require
  cases b
  · exact safe_error
  · exact safe_ok _

theorem safe_bind {α β : Type} {x : Outcome α} {f : α → Outcome β} (hx : Safe x)
    (hf : ∀ a, x = .ok a → Safe (f a)) : Safe (x >>= f) := by
  cases x with
  | ok a => exact hf a rfl
  | error => exact safe_error
  | ub => exact absurd rfl hx.1
  | diverge => exact absurd rfl hx.2

theorem flags_fold (names : List String) (f : SolverFlags) :
    names.foldl flagOf f =
      ⟨f.iterative || decide ("iterative" ∈ names), f.variational || decide ("variational" ∈ names),
        f.relaxons || decide ("relaxons" ∈ names)⟩ := by
  induction names generalizing f with
  | nil => simp
  | cons n rest ih =>
    rw [List.foldl_cons, ih]
    unfold flagOf
    by_cases h1 : n = "iterative"
    · subst h1; simp
    · by_cases h2 : n = "variational"
      · subst h2; simp
      · by_cases h3 : n = "relaxons"
        · subst h3; simp
        · have a1 : ¬ "iterative" = n := fun h => h1 h.symm
          have a2 : ¬ "variational" = n := fun h => h2 h.symm
          have a3 : ¬ "relaxons" = n := fun h => h3 h.symm
          simp [h1, h2, h3, a1, a2, a3]

theorem flags_eq (s : RunSettings) : solverFlags s.solvers =
    ⟨decide ("iterative" ∈ s.solvers), decide ("variational" ∈ s.solvers),
      decide ("relaxons" ∈ s.solvers)⟩ := by
  unfold solverFlags
  rw [flags_fold]
  simp

/-- The loop of a solver whose products always succeed. -/
theorem loop_const (l : List RunEvent) (conv : Nat → Bool) (n : Nat) : ∀ i,
    Safe (solverLoop (.ok l) conv i n) ∧
    ((∃ e, solverLoop (.ok l) conv i n = .ok e) ↔ n = 0 ∨ ∃ j, j < n ∧ conv (i + j) = true) ∧
    (∀ e, solverLoop (.ok l) conv i n = .ok e →
      (∀ x ∈ e, x ∈ l) ∧ (0 < n → l ≠ [] → e ≠ [])) := by
  induction n with
  | zero =>
    intro i
    refine ⟨safe_ok _, ⟨fun _ => .inl rfl, fun _ => ⟨[], rfl⟩⟩, ?_⟩
    intro e h
    simp only [solverLoop, Outcome.ok.injEq] at h
    subst h
    exact ⟨by simp, by simp⟩
  | succ n ih =>
    intro i
    have unfolded : solverLoop (.ok l) conv i (n + 1) =
        if conv i then .ok l else if n = 0 then .error else
          (do let r ← solverLoop (.ok l) conv (i + 1) n; .ok (l ++ r)) := by
      simp only [solverLoop]
      rfl
    rw [unfolded]
    by_cases hc : conv i = true
    · rw [if_pos hc]
      refine ⟨safe_ok _, ⟨fun _ => .inr ⟨0, by omega, by simpa using hc⟩, fun _ => ⟨l, rfl⟩⟩, ?_⟩
      intro e h
      rw [Outcome.ok.injEq] at h
      subst h
      exact ⟨fun x hx => hx, fun _ h => h⟩
    · rw [if_neg hc]
      by_cases hn : n = 0
      · rw [if_pos hn]
        refine ⟨safe_error, ⟨fun ⟨e, h⟩ => by simp at h, ?_⟩, fun e h => by simp at h⟩
        rintro (h | ⟨j, hj, h⟩)
        · omega
        · have : j = 0 := by omega
          subst this
          exact absurd (by simpa using h) hc
      · rw [if_neg hn]
        obtain ⟨s1, s2, s3⟩ := ih (i + 1)
        refine ⟨safe_bind s1 fun a _ => safe_ok _, ?_, ?_⟩
        · constructor
          · rintro ⟨e, h⟩
            rw [Outcome.bind_eq_ok_iff] at h
            obtain ⟨r, hr, _⟩ := h
            rcases s2.mp ⟨r, hr⟩ with h0 | ⟨j, hj, hcj⟩
            · exact absurd h0 hn
            · exact .inr ⟨j + 1, by omega, by rw [← hcj]; congr 1; omega⟩
          · rintro (h | ⟨j, hj, hcj⟩)
            · omega
            · have hj0 : j ≠ 0 := fun h0 => hc (by rw [h0] at hcj; simpa using hcj)
              obtain ⟨r, hr⟩ := s2.mpr (.inr ⟨j - 1, by omega, by rw [← hcj]; congr 1; omega⟩)
              exact ⟨l ++ r, by rw [hr]; rfl⟩
        · intro e h
          rw [Outcome.bind_eq_ok_iff] at h
          obtain ⟨r, hr, h⟩ := h
          rw [Outcome.ok.injEq] at h
          subst h
          refine ⟨?_, fun _ hl he => hl (List.append_eq_nil_iff.mp he).1⟩
          intro x hx
          rcases List.mem_append.mp hx with h | h
          · exact h
          · exact (s3 r hr).1 x h

/-- The object of the matrix after a successful setup with computed rates. -/
def readyObject (s : RunSettings) (w : RunWorld) (scaled : Bool) : ScatObject :=
  { inMemory := s.inMemory, constantRTA := false, smearing := true, coupling := true,
    stored := s.inMemory && decide (0 < w.numStates), omega := scaled, destroyed := false }

/-- Where its products come from. -/
def sourceOf (s : RunSettings) (scaled : Bool) : MatrixSource :=
  if s.inMemory then .stored scaled else .recomputed

theorem ready_product {s : RunSettings} {w : RunWorld} (hw : 0 < w.numStates) (scaled : Bool) :
    scatProduct (readyObject s w scaled) = .ok (.product (sourceOf s scaled)) := by
  unfold scatProduct readyObject sourceOf callBuilder
  cases h : s.inMemory <;> simp [hw, Outcome.bind_eq, h]

theorem noCrt {s : RunSettings} (h : s.constantTime = none) : isConstantRTA s = false := by
  unfold isConstantRTA
  rw [h]

theorem make_ok {s : RunSettings} (hc : s.constantTime = none) (electrons coupling : Bool)
    {o : ScatObject} : makeScattering s electrons coupling = .ok o ↔
      (s.smearingMethod = 0 ∨ s.smearingMethod = 1 ∨ (s.smearingMethod = 2 ∧ electrons = false)) ∧
      o = { inMemory := s.inMemory, constantRTA := false, smearing := true, coupling,
            stored := false, omega := electrons, destroyed := false } := by
  simp only [makeScattering, noCrt hc]
  rw [if_neg (by simp)]
  split
  · rename_i h
    rw [Outcome.ok.injEq]
    exact ⟨fun e => ⟨h, e.symm⟩, fun e => e.2.symm⟩
  · rename_i h
    exact ⟨fun e => by simp at e, fun e => absurd e.1 h⟩

theorem safe_make (s : RunSettings) (electrons coupling : Bool) :
    Safe (makeScattering s electrons coupling) := by
  simp only [makeScattering]
  split
  · exact safe_ok _
  · split
    · exact safe_ok _
    · exact safe_error

/-- The object of the matrix before its setup. -/
def freshObject (s : RunSettings) (scaled : Bool) : ScatObject :=
  { inMemory := s.inMemory, constantRTA := false, smearing := true, coupling := true,
    stored := false, omega := scaled, destroyed := false }

/-- The setup of a matrix whose interaction was read. -/
theorem setup_ok {s : RunSettings} {w : RunWorld} (scaled : Bool) (numCalc : Nat) {o : ScatObject} :
    setupScattering (freshObject s scaled) numCalc w.numStates = .ok o ↔
      (s.inMemory = true → numCalc ≤ 1) ∧ o = readyObject s w scaled := by
  unfold setupScattering freshObject readyObject callBuilder
  cases h : s.inMemory
  · simp [Outcome.bind_eq, eq_comm]
  · simp only [Bool.and_self, if_true, Bool.false_eq_true, if_false, true_implies]
    split
    · rename_i h1
      simp only [reduceCtorEq, false_iff, not_and]
      intro h2
      omega
    · rename_i h1
      simp only [Outcome.bind_eq, Outcome.bind_ok, Outcome.ok.injEq, Bool.true_and]
      constructor
      · intro e
        exact ⟨by omega, e.symm⟩
      · intro e
        exact e.2.symm

theorem safe_setup {s : RunSettings} {w : RunWorld} (scaled : Bool) (numCalc : Nat) :
    Safe (setupScattering (freshObject s scaled) numCalc w.numStates) := by
  unfold setupScattering freshObject callBuilder
  cases h : s.inMemory
  · simp only [Bool.false_eq_true, if_false, Bool.and_self, if_true]
    exact safe_ok _
  · simp only [Bool.and_self, if_true, Bool.false_eq_true, if_false]
    split
    · exact safe_error
    · exact safe_ok _

theorem converges_iff {s : RunSettings} (conv : Nat → Bool) (h0 : 0 < s.maxIterations) :
    (s.maxIterations.toNat = 0 ∨ ∃ j, j < s.maxIterations.toNat ∧ conv (0 + j) = true) ↔
      Converges s conv := by
  unfold Converges
  constructor
  · rintro (h | ⟨j, hj, hc⟩)
    · omega
    · exact ⟨j, by omega, by simpa using hc⟩
  · rintro ⟨i, hi, hc⟩
    exact .inr ⟨i, by omega, by simpa using hc⟩

theorem iterative_part {s : RunSettings} {w : RunWorld} (hw : 0 < w.numStates)
    (h0 : 0 < s.maxIterations) (scaled : Bool) (file : String) :
    Safe (iterativePart s w (readyObject s w scaled) file) ∧
    ((∃ e, iterativePart s w (readyObject s w scaled) file = .ok e) ↔
      Converges s w.ominiConverged) ∧
    (∀ e, iterativePart s w (readyObject s w scaled) file = .ok e →
      ∃ use, e = use ++ [.write file] ∧ use ≠ [] ∧
        ∀ x ∈ use, x = .product (sourceOf s scaled)) := by
  have step : (do .ok [← scatProduct (readyObject s w scaled)] : Outcome (List RunEvent)) =
      .ok [.product (sourceOf s scaled)] := by
    rw [ready_product hw]
    rfl
  unfold iterativePart
  rw [step]
  obtain ⟨l1, l2, l3⟩ := loop_const [.product (sourceOf s scaled)] w.ominiConverged
    s.maxIterations.toNat 0
  refine ⟨safe_bind l1 fun _ _ => safe_ok _, ?_, ?_⟩
  · rw [← converges_iff _ h0, ← l2]
    constructor
    · rintro ⟨e, h⟩
      rw [Outcome.bind_eq_ok_iff] at h
      obtain ⟨r, hr, _⟩ := h
      exact ⟨r, hr⟩
    · rintro ⟨r, hr⟩
      exact ⟨_, by rw [hr]; rfl⟩
  · intro e h
    rw [Outcome.bind_eq_ok_iff] at h
    obtain ⟨r, hr, h⟩ := h
    rw [Outcome.ok.injEq] at h
    subst h
    obtain ⟨m, ne⟩ := l3 r hr
    exact ⟨r, rfl, ne (by omega) (by simp), fun x hx => by simpa using m x hx⟩

theorem variational_part {s : RunSettings} {w : RunWorld} (hw : 0 < w.numStates)
    (h0 : 0 < s.maxIterations) (scaled : Bool) (file : String) :
    Safe (variationalPart s w (readyObject s w scaled) file) ∧
    ((∃ e, variationalPart s w (readyObject s w scaled) file = .ok e) ↔
      Converges s w.cgConverged) ∧
    (∀ e, variationalPart s w (readyObject s w scaled) file = .ok e →
      ∃ use, e = use ++ [.write file] ∧ 2 ≤ use.length ∧
        ∀ x ∈ use, x = .product (sourceOf s scaled)) := by
  have step : (do .ok [← scatProduct (readyObject s w scaled),
      ← scatProduct (readyObject s w scaled)] : Outcome (List RunEvent)) =
      .ok [.product (sourceOf s scaled), .product (sourceOf s scaled)] := by
    rw [ready_product hw]
    rfl
  unfold variationalPart
  rw [step, ready_product hw]
  obtain ⟨l1, l2, l3⟩ := loop_const [.product (sourceOf s scaled), .product (sourceOf s scaled)]
    w.cgConverged s.maxIterations.toNat 0
  refine ⟨safe_bind (safe_ok _) fun _ _ => safe_bind l1 fun _ _ => safe_ok _, ?_, ?_⟩
  · rw [← converges_iff _ h0, ← l2]
    constructor
    · rintro ⟨e, h⟩
      rw [Outcome.bind_eq_ok_iff] at h
      obtain ⟨_, _, h⟩ := h
      rw [Outcome.bind_eq_ok_iff] at h
      obtain ⟨r, hr, _⟩ := h
      exact ⟨r, hr⟩
    · rintro ⟨r, hr⟩
      exact ⟨_, by rw [hr]; rfl⟩
  · intro e h
    rw [Outcome.bind_eq_ok_iff] at h
    obtain ⟨e₀, he₀, h⟩ := h
    rw [Outcome.bind_eq_ok_iff] at h
    obtain ⟨r, hr, h⟩ := h
    rw [Outcome.ok.injEq] at h he₀
    subst h
    subst he₀
    obtain ⟨m, ne⟩ := l3 r hr
    refine ⟨_ :: r, rfl, ?_, ?_⟩
    · have := List.length_pos_iff.mpr (ne (by omega) (by simp))
      simp only [List.length_cons]
      omega
    · intro x hx
      rcases List.mem_cons.mp hx with h | h
      · exact h
      · simpa using m x h

/-- The checks before the exact solvers. -/
theorem checks_ok {s : RunSettings} {sym : Bool} {numCalc : Nat} {e : List RunEvent} :
    solverChecks s (solverFlags s.solvers) sym numCalc = .ok e →
      (Asked s .relaxons → s.inMemory = true) ∧
      (Asked s .variational ∨ Asked s .relaxons → sym = false) ∧
      (s.inMemory = true → numCalc = 1) ∧
      ((e = [] ∧ ¬ (s.symmetrize = true ∧ s.inMemory = true ∧ sym = false ∧ ∃ x, Asked s x)) ∨
        (e = [.symmetrized] ∧
          s.symmetrize = true ∧ s.inMemory = true ∧ sym = false ∧ ∃ x, Asked s x)) := by
  intro h
  rw [flags_eq] at h
  unfold solverChecks at h
  rw [Outcome.bind_eq_ok_iff] at h
  obtain ⟨_, h1, h⟩ := h
  rw [Outcome.bind_eq_ok_iff] at h
  obtain ⟨_, h2, h⟩ := h
  rw [Outcome.bind_eq_ok_iff] at h
  obtain ⟨_, h3, h⟩ := h
  rw [Outcome.bind_eq_ok_iff] at h
  obtain ⟨_, h4, h⟩ := h
  rw [require_ok] at h1 h2 h3 h4
  rw [Outcome.ok.injEq] at h
  have some_asked : (∃ x, Asked s x) ↔
      "variational" ∈ s.solvers ∨ "relaxons" ∈ s.solvers ∨ "iterative" ∈ s.solvers := by
    constructor
    · rintro ⟨x, hx⟩
      cases x with
      | iterative => exact .inr (.inr hx)
      | variational => exact .inl hx
      | relaxons => exact .inr (.inl hx)
    · rintro (a | a | a)
      · exact ⟨.variational, a⟩
      · exact ⟨.relaxons, a⟩
      · exact ⟨.iterative, a⟩
  rw [some_asked]
  unfold Asked ExactSolver.name
  simp only [Bool.not_eq_true', Bool.and_eq_false_iff, decide_eq_false_iff_not, bne_eq_false_iff_eq]
    at h1 h2 h3 h4
  refine ⟨?_, ?_, ?_, ?_⟩
  · intro a
    rcases h1 with h1 | h1
    · exact absurd a h1
    · simpa using h1
  · rintro (a | a)
    · rcases h3 with h3 | h3
      · exact absurd a h3
      · exact h3
    · rcases h2 with h2 | h2
      · exact absurd a h2
      · exact h2
  · intro a
    rcases h4 with h4 | h4
    · rw [a] at h4
      exact absurd h4 (by simp)
    · exact h4
  · rw [← h]
    split
    · rename_i c
      simp only [Bool.and_eq_true, Bool.or_eq_true, decide_eq_true_eq, Bool.not_eq_true'] at c
      exact .inr ⟨rfl, c.2, c.1.1.1, c.1.1.2, by tauto⟩
    · rename_i c
      simp only [Bool.and_eq_true, Bool.or_eq_true, decide_eq_true_eq, Bool.not_eq_true'] at c
      exact .inl ⟨rfl, fun a => c ⟨⟨⟨a.2.1, a.2.2.1⟩, by tauto⟩, a.1⟩⟩

theorem checks_of {s : RunSettings} {sym : Bool} {numCalc : Nat}
    (h1 : Asked s .relaxons → s.inMemory = true)
    (h2 : Asked s .variational ∨ Asked s .relaxons → sym = false)
    (h3 : s.inMemory = true → numCalc = 1) :
    ∃ e, solverChecks s (solverFlags s.solvers) sym numCalc = .ok e := by
  rw [flags_eq]
  unfold solverChecks
  unfold Asked ExactSolver.name at h1 h2
  have r1 : require (!(decide ("relaxons" ∈ s.solvers) && !s.inMemory)) = .ok () := by
    rw [require_ok]
    by_cases a : "relaxons" ∈ s.solvers
    · simp [h1 a]
    · simp [a]
  have r2 : require (!(decide ("relaxons" ∈ s.solvers) && sym)) = .ok () := by
    rw [require_ok]
    by_cases a : "relaxons" ∈ s.solvers
    · simp [h2 (.inr a)]
    · simp [a]
  have r3 : require (!(decide ("variational" ∈ s.solvers) && sym)) = .ok () := by
    rw [require_ok]
    by_cases a : "variational" ∈ s.solvers
    · simp [h2 (.inl a)]
    · simp [a]
  have r4 : require (!(s.inMemory && numCalc != 1)) = .ok () := by
    rw [require_ok]
    by_cases a : s.inMemory = true
    · simp [h3 a]
    · simp [a]
  simp only [r1, r2, r3, r4, Outcome.bind_eq, Outcome.bind_ok]
  exact ⟨_, rfl⟩

theorem safe_checks (s : RunSettings) (f : SolverFlags) (sym : Bool) (numCalc : Nat) :
    Safe (solverChecks s f sym numCalc) := by
  unfold solverChecks
  exact safe_bind (safe_require _) fun _ _ => safe_bind (safe_require _) fun _ _ =>
    safe_bind (safe_require _) fun _ _ => safe_bind (safe_require _) fun _ _ => safe_ok _

/-- The input check before the run. -/
theorem sanity_ok {s : RunSettings} {u : Unit} : inputSanityCheck s = .ok u ↔
    (Asked s .variational ∨ Asked s .relaxons → s.useSymmetries = false) := by
  unfold inputSanityCheck Asked ExactSolver.name
  rw [require_ok, List.all_eq_true]
  constructor
  · rintro h (a | a)
    · simpa using h _ a
    · simpa using h _ a
  · intro h name hn
    by_cases a : name = "variational"
    · subst a
      simp [h (.inl hn)]
    · by_cases b : name = "relaxons"
      · subst b
        simp [h (.inr hn)]
      · simp [a, b]

theorem relaxons_phonon {s : RunSettings} {w : RunWorld} (hw : 0 < w.numStates)
    (hm : s.inMemory = true) :
    Safe (phononRelaxons s w (readyObject s w false) false) ∧
    ((∃ e, phononRelaxons s w (readyObject s w false) false = .ok e) ↔
      s.numRelaxons ≤ w.numStates) ∧
    (∀ e, phononRelaxons s w (readyObject s w false) false = .ok e → ∃ n, n = relaxonsWanted s w ∧
      e = [.rescaled, .product (.stored true), .write "ph_relaxons_real_space_coeffs.json",
        .diagonalized true n, .write "relaxons_phonon_thermal_cond.json",
        .write "relaxons_relaxation_times.json", .write "relaxons_phonon_viscosity.json"]) := by
  unfold phononRelaxons scatRescale readyObject
  simp only [hm, Bool.true_and, hw, decide_true, Bool.not_true, Bool.false_eq_true, if_false,
    Outcome.bind_eq, Outcome.bind_ok, scatProduct, if_true, scatDiagonalize]
  by_cases h : s.numRelaxons > w.numStates
  · simp only [if_pos h]
    refine ⟨safe_error, ⟨fun ⟨e, he⟩ => by simp [Outcome.bind] at he, fun h' => by omega⟩,
      fun e he => by simp [Outcome.bind] at he⟩
  · simp only [if_neg h, Outcome.bind_ok]
    refine ⟨safe_ok _, ⟨fun _ => by omega, fun _ => ⟨_, rfl⟩⟩, fun e he => ?_⟩
    rw [Outcome.ok.injEq] at he
    exact ⟨_, rfl, he.symm⟩

theorem relaxons_electron {s : RunSettings} {w : RunWorld} (hw : 0 < w.numStates)
    (hm : s.inMemory = true) :
    Safe (electronRelaxons s w (readyObject s w true) false) ∧
    ((∃ e, electronRelaxons s w (readyObject s w true) false = .ok e) ↔
      s.numRelaxons ≤ w.numStates) ∧
    (∀ e, electronRelaxons s w (readyObject s w true) false = .ok e → ∃ n, n = relaxonsWanted s w ∧
      e = [.product (.stored true), .write "el_relaxons_real_space_coeffs.json",
        .diagonalized true n, .write "relaxons_onsager_coefficients.json",
        .write "exact_relaxation_times.json", .write "relaxons_electron_viscosity.json"]) := by
  unfold electronRelaxons readyObject
  simp only [hm, Bool.true_and, hw, decide_true, Bool.false_eq_true, if_false,
    Outcome.bind_eq, Outcome.bind_ok, scatProduct, if_true, scatDiagonalize]
  by_cases h : s.numRelaxons > w.numStates
  · simp only [if_pos h]
    refine ⟨safe_error, ⟨fun ⟨e, he⟩ => by simp [Outcome.bind] at he, fun h' => by omega⟩,
      fun e he => by simp [Outcome.bind] at he⟩
  · simp only [if_neg h, Outcome.bind_ok]
    refine ⟨safe_ok _, ⟨fun _ => by omega, fun _ => ⟨_, rfl⟩⟩, fun e he => ?_⟩
    rw [Outcome.ok.injEq] at he
    exact ⟨_, rfl, he.symm⟩

theorem safe_onlyIf {b : Bool} {x : Outcome (List RunEvent)} (h : b = true → Safe x) :
    Safe (onlyIf b x) := by
  unfold onlyIf
  split
  · rename_i hb
    exact h hb
  · exact safe_ok _

theorem onlyIf_ok {b : Bool} {x : Outcome (List RunEvent)} {e : List RunEvent} :
    onlyIf b x = .ok e ↔ (b = true ∧ x = .ok e) ∨ (b = false ∧ e = []) := by
  unfold onlyIf
  cases b
  · simp [eq_comm]
  · simp

end Verif.Proofs
