import Verif.Proofs.Atoms
import Mathlib.Tactic.NormNum
import Mathlib.Tactic.Positivity

/-! # C158: masses and isotope couplings of the atoms -/
namespace Verif.Props
open Verif.Model Verif.Spec

/-- Every element of the table is found by its symbol, with its own row; masses are positive and variances are
not negative; a name which is not in the table is refused. -/
theorem C158_table :
    (∀ e ∈ elementTable, getMass elementTable e.symbol = .ok e.mass.val ∧
      getMassVariance elementTable e.symbol = .ok e.massVariance.val ∧ 0 < e.mass.val ∧ 0 ≤ e.massVariance.val) ∧
    ∀ n, (∀ e ∈ elementTable, e.symbol ≠ n) → getMassVariance elementTable n = .error := by
  refine ⟨fun e he => ⟨getMass_val e he, getMassVariance_val e he, ?_, ?_⟩, getMassVariance_unknown⟩
  · have h : ∀ e ∈ elementTable, 0 < e.mass.digits := by decide +kernel
    have := h e he
    unfold Decimal.val
    positivity
  · unfold Decimal.val
    positivity

/-- The atoms of the crystal are as asked: names, masses, isotope couplings, for any number of species and atoms, with or
without the lists of the input file.  The values in these lists have to be positive: see `C158_violated_zero`. -/
theorem C158_atoms_partial (c : CrystalInput) (hc : GoodCrystal c)
    (hm : c.customMasses = [] ∨ (containsWord c.appName "phonon".toList = true ∧
      c.customMasses.length = c.speciesNames.length ∧ ∀ x ∈ c.customMasses, 0 < x))
    (hg : c.customCouplings = [] ∨ (c.customCouplings.length = c.speciesNames.length ∧ ∀ x ∈ c.customCouplings, 0 < x)) :
    ∃ l, crystalAtoms elementTable c = .ok l ∧ l.length = c.atomicSpecies.length ∧
      ∀ (i : Nat) (s : Int) a, c.atomicSpecies[i]? = some s → l[i]? = some a → AtomAsAsked c s.toNat a := by
  obtain ⟨hnat, hnat'⟩ := natural_val c.speciesNames hc.known
  -- masses
  have hmass : ∃ ms, crystalMasses c = .ok ms ∧ ms.length = c.speciesNames.length ∧
      ∀ s (h : s < ms.length), match given c.customMasses s with
        | some m => ms[s] = m
        | none => c.speciesMasses[s]? = some ms[s] := by
    rcases hm with h0 | ⟨h1, h2, h3⟩
    · refine ⟨c.speciesMasses, by simp [crystalMasses, h0], hc.masses, fun s hs => ?_⟩
      simp [given, h0, List.getElem?_eq_getElem hs]
    · by_cases hz : c.customMasses.length = 0
      · refine ⟨c.speciesMasses, by simp [crystalMasses, hz], hc.masses, fun s hs => ?_⟩
        have : c.customMasses = [] := List.length_eq_zero_iff.1 hz
        simp [given, this, List.getElem?_eq_getElem hs]
      · refine ⟨c.customMasses, ?_, h2, fun s hs => ?_⟩
        · unfold crystalMasses
          rw [if_pos (by omega), h1, if_neg (by simp), if_neg (by simp [h2])]
          have := mapOutcome_eq_map (fun i => do
              let x ← readAt c.customMasses i
              let y ← readAt c.speciesMasses i
              if x > 0 then Outcome.ok x else .ok y) (fun i => c.customMasses.getD i 0)
            (List.range c.speciesNames.length) (by
            intro i hi
            rw [List.mem_range] at hi
            have hi1 : i < c.customMasses.length := by omega
            have hi2 : i < c.speciesMasses.length := by rw [hc.masses]; exact hi
            simp only [readAt_ok hi1, readAt_ok hi2, Outcome.bind_eq, Outcome.bind_ok]
            rw [if_pos (h3 _ (List.getElem_mem hi1))]
            simp [List.getD, List.getElem?_eq_getElem hi1])
          rw [this]
          congr 1
          apply List.ext_getElem
          · simp [h2]
          · intro i ha hb
            simp [List.getD, List.getElem?_eq_getElem hb]
        · simp [given, List.getElem?_eq_getElem hs]
  -- couplings
  have hcoup : ∃ gs, crystalCouplings c (c.speciesNames.map naturalOf) = .ok gs ∧
      gs.length = c.speciesNames.length ∧ ∀ s (h : s < gs.length), match given c.customCouplings s with
        | some g => gs[s] = g
        | none => ∀ h' : s < c.speciesNames.length, gs[s] = naturalOf c.speciesNames[s] := by
    have hzero : c.customCouplings = [] → ∃ gs, crystalCouplings c (c.speciesNames.map naturalOf) = .ok gs ∧
        gs.length = c.speciesNames.length ∧ ∀ s (h : s < gs.length), match given c.customCouplings s with
        | some g => gs[s] = g
        | none => ∀ h' : s < c.speciesNames.length, gs[s] = naturalOf c.speciesNames[s] := by
      intro h0
      have := mapOutcome_eq_map (fun i => do
          let y ← readAt (c.speciesNames.map naturalOf) i
          if c.customCouplings.length > 0 then
            if c.customCouplings.length ≠ c.speciesNames.length then .error
            else do
              let x ← readAt c.customCouplings i
              if x > 0 then Outcome.ok x else .ok y
          else .ok y) (fun i => (c.speciesNames.map naturalOf).getD i 0) (List.range c.speciesNames.length) (by
        intro i hi
        rw [List.mem_range] at hi
        have hi1 : i < (c.speciesNames.map naturalOf).length := by simpa using hi
        simp only [readAt_ok hi1, Outcome.bind_eq, Outcome.bind_ok, h0]
        simp [List.getD, hi])
      refine ⟨_, this, by simp, fun s hs => ?_⟩
      simp only [given, h0, List.getElem?_nil]
      intro h'
      simp [List.getD, h']
    rcases hg with h0 | ⟨h1, h2⟩
    · exact hzero h0
    · by_cases hz : c.customCouplings.length = 0
      · exact hzero (List.length_eq_zero_iff.1 hz)
      · have := mapOutcome_eq_map (fun i => do
            let y ← readAt (c.speciesNames.map naturalOf) i
            if c.customCouplings.length > 0 then
              if c.customCouplings.length ≠ c.speciesNames.length then .error
              else do
                let x ← readAt c.customCouplings i
                if x > 0 then Outcome.ok x else .ok y
            else .ok y) (fun i => c.customCouplings.getD i 0) (List.range c.speciesNames.length) (by
          intro i hi
          rw [List.mem_range] at hi
          have hi1 : i < (c.speciesNames.map naturalOf).length := by simpa using hi
          have hi2 : i < c.customCouplings.length := by omega
          simp only [readAt_ok hi1, readAt_ok hi2, Outcome.bind_eq, Outcome.bind_ok]
          rw [if_pos (by omega), if_neg (by simp [h1]), if_pos (h2 _ (List.getElem_mem hi2))]
          simp [List.getD, List.getElem?_eq_getElem hi2])
        refine ⟨_, this, by simp, fun s hs => ?_⟩
        simp only [List.length_map, List.length_range] at hs
        have hs' : s < c.customCouplings.length := by omega
        simp [given, List.getD, List.getElem?_eq_getElem hs']
  obtain ⟨ms, hms, hml, hmv⟩ := hmass
  obtain ⟨gs, hgs, hgl, hgv⟩ := hcoup
  have hread : ∀ {α : Type} (l : List α) (s : Int), 0 ≤ s → (h : s.toNat < l.length) → readInt l s = .ok l[s.toNat] := by
    intro α l s h0 h
    unfold readInt
    rw [if_neg (by omega), readAt_ok h]
  have hall := mapOutcome_eq_map (fun s => do
      let m ← readInt ms s
      let n ← readInt c.speciesNames s
      let g ← readInt gs s
      Outcome.ok (⟨n, m, g⟩ : AtomData)) (fun s => ⟨c.speciesNames.getD s.toNat [], ms.getD s.toNat 0, gs.getD s.toNat 0⟩)
    c.atomicSpecies (by
    intro s hs
    obtain ⟨s0, s1⟩ := hc.species s hs
    have t1 : s.toNat < c.speciesNames.length := by omega
    have t2 : s.toNat < ms.length := by omega
    have t3 : s.toNat < gs.length := by omega
    simp only [hread ms s s0 t2, hread c.speciesNames s s0 t1, hread gs s s0 t3, Outcome.bind_eq, Outcome.bind_ok]
    simp [List.getD, List.getElem?_eq_getElem t1, List.getElem?_eq_getElem t2, List.getElem?_eq_getElem t3])
  refine ⟨c.atomicSpecies.map fun s => ⟨c.speciesNames.getD s.toNat [], ms.getD s.toNat 0, gs.getD s.toNat 0⟩,
    ?_, by simp, ?_⟩
  · unfold crystalAtoms
    rw [if_neg (not_le.2 hc.volume), if_neg (by simp [hc.rows]), if_neg (by simp [hc.cols]), if_neg (by simp [hc.masses])]
    simp only [hnat, hms, hgs, Outcome.bind_eq, Outcome.bind_ok]
    exact hall
  · intro i s a hs ha
    rw [List.getElem?_map, hs, Option.map_some, Option.some.injEq] at ha
    subst ha
    obtain ⟨s0, s1⟩ := hc.species s (List.mem_of_getElem? hs)
    have t1 : s.toNat < c.speciesNames.length := by omega
    have t2 : s.toNat < ms.length := by omega
    have t3 : s.toNat < gs.length := by omega
    have e1 : c.speciesNames.getD s.toNat [] = c.speciesNames[s.toNat] := by simp [List.getD, t1]
    have e2 : ms.getD s.toNat 0 = ms[s.toNat] := by simp [List.getD, t2]
    have e3 : gs.getD s.toNat 0 = gs[s.toNat] := by simp [List.getD, t3]
    unfold AtomAsAsked
    simp only [e1, e2, e3]
    refine ⟨List.getElem?_eq_getElem t1, hmv _ t2, ?_⟩
    have := hgv _ t3
    cases hh : given c.customCouplings s.toNat with
    | some g => rw [hh] at this; exact this
    | none =>
      rw [hh] at this
      simp only at this ⊢
      obtain ⟨e, he, h1, h2⟩ := hnat' _ (List.getElem_mem t1)
      exact ⟨e, he, h1, (this t1).trans h2⟩

/-- Descriptions that are not consistent are refused: an empty cell, species and positions of different lengths, positions
without three coordinates, masses and names of different lengths, an unknown element, masses in the input file for another
application, and lists of the input file of the wrong length. -/
theorem C158_refused (c : CrystalInput) :
    (c.volume ≤ 0 ∨ c.atomicSpecies.length ≠ c.positionRows ∨ c.positionCols ≠ 3 ∨
      c.speciesMasses.length ≠ c.speciesNames.length → crystalAtoms elementTable c = .error) ∧
    ((∃ n ∈ c.speciesNames, ∀ e ∈ elementTable, e.symbol ≠ n) → crystalAtoms elementTable c = .error) ∧
    ((∀ n ∈ c.speciesNames, ∃ e ∈ elementTable, e.symbol = n) →
      (c.customMasses ≠ [] ∧ (containsWord c.appName "phonon".toList = false ∨
        c.customMasses.length ≠ c.speciesNames.length)) → crystalAtoms elementTable c = .error) ∧
    ((∀ n ∈ c.speciesNames, ∃ e ∈ elementTable, e.symbol = n) → c.customMasses = [] → c.speciesNames ≠ [] →
      (c.customCouplings ≠ [] ∧ c.customCouplings.length ≠ c.speciesNames.length) →
      crystalAtoms elementTable c = .error) := by
  have hpre : ∀ (k : Outcome (List AtomData)), k = .error → (if c.volume ≤ 0 then Outcome.error
      else if c.atomicSpecies.length ≠ c.positionRows then .error
      else if c.positionCols ≠ 3 then .error
      else if c.speciesMasses.length ≠ c.speciesNames.length then .error else k) = .error := by
    rintro k rfl; simp
  refine ⟨fun h => ?_, fun h => ?_, fun h1 h2 => ?_, fun h1 h2 h3 h4 => ?_⟩
  · unfold crystalAtoms
    rcases h with h | h | h | h <;> simp [h]
  · apply hpre
    obtain ⟨n, hn, hu⟩ := h
    have : mapOutcome (getMassVariance elementTable) c.speciesNames = .error := by
      generalize c.speciesNames = l at hn
      induction l with
      | nil => simp at hn
      | cons a l ih =>
        unfold mapOutcome
        by_cases ha : ∃ e ∈ elementTable, e.symbol = a
        · obtain ⟨e, he, rfl⟩ := ha
          rcases List.mem_cons.1 hn with rfl | hn'
          · exact absurd rfl (hu e he)
          · rw [getMassVariance_val e he, ih hn']; rfl
        · push Not at ha
          rw [getMassVariance_unknown a ha]; rfl
    rw [this]; rfl
  · apply hpre
    rw [(natural_val c.speciesNames h1).1]
    have : crystalMasses c = .error := by
      unfold crystalMasses
      rw [if_pos (List.length_pos_iff.2 h2.1)]
      rcases h2.2 with h | h
      · rw [h, if_pos (by simp)]
      · simp [h]
    simp only [Outcome.bind_eq, Outcome.bind_ok, this]
    rfl
  · apply hpre
    rw [(natural_val c.speciesNames h1).1]
    have hm : crystalMasses c = .ok c.speciesMasses := by simp [crystalMasses, h2]
    have : crystalCouplings c (c.speciesNames.map naturalOf) = .error := by
      unfold crystalCouplings
      obtain ⟨n, hn⟩ : ∃ n, c.speciesNames.length = n + 1 := ⟨c.speciesNames.length - 1, by
        have := List.length_pos_iff.2 h3; omega⟩
      have h0 : 0 < (c.speciesNames.map naturalOf).length := by simp [hn]
      have hne : c.customCouplings.length ≠ n + 1 := fun e => h4.2 (e.trans hn.symm)
      rw [hn, List.range_succ_eq_map]
      simp only [mapOutcome, readAt_ok h0, Outcome.bind_eq, Outcome.bind_ok]
      rw [if_pos (List.length_pos_iff.2 h4.1), if_pos hne]
      rfl
    simp only [Outcome.bind_eq, Outcome.bind_ok, hm, this]
    rfl

/-- One atom of silicon in a phonon calculation. -/
def siliconInput (couplings : List ℚ) : CrystalInput :=
  ⟨1, 1, 3, [0], ["Si".toList], [28], "phononTransport".toList, [30], couplings⟩

theorem siliconGood (l : List ℚ) : GoodCrystal (siliconInput l) where
  volume := by simp [siliconInput]
  rows := rfl
  cols := rfl
  masses := rfl
  species := by simp [siliconInput]
  known := by
    intro n hn
    simp only [siliconInput, List.mem_singleton] at hn
    subst hn
    exact ⟨⟨['S', 'i'], 14, ⟨28085, 3⟩, ⟨20164270215294942, 20⟩⟩, by decide +kernel, rfl⟩

/-- An isotopically pure crystal cannot be asked for: a coupling of zero in the input file is ignored, and the natural one is
used. -/
theorem C158_violated_zero : GoodCrystal (siliconInput [0]) ∧ given (siliconInput [0]).customCouplings 0 = some 0 ∧
    ∃ a, crystalAtoms elementTable (siliconInput [0]) = .ok [a] ∧ a.isotopeCoupling ≠ 0 := by
  refine ⟨siliconGood _, rfl, ⟨"Si".toList, 30, (⟨20164270215294942, 20⟩ : Decimal).val⟩, ?_, ?_⟩
  · have e : getMassVariance elementTable ['S', 'i'] = .ok (⟨20164270215294942, 20⟩ : Decimal).val :=
      getMassVariance_val ⟨['S', 'i'], 14, ⟨28085, 3⟩, ⟨20164270215294942, 20⟩⟩ (by decide +kernel)
    have h1 : crystalMasses (siliconInput [0]) = .ok [30] := by
      have hw : containsWord (siliconInput [0]).appName "phonon".toList = true := by decide
      unfold crystalMasses
      rw [hw]
      simp [siliconInput, mapOutcome, readAt, Outcome.bind_eq, Outcome.bind, List.range_succ]
    have h2 : crystalCouplings (siliconInput [0]) [(⟨20164270215294942, 20⟩ : Decimal).val] =
        .ok [(⟨20164270215294942, 20⟩ : Decimal).val] := by
      simp [crystalCouplings, siliconInput, mapOutcome, readAt, Outcome.bind_eq, Outcome.bind, List.range_succ]
    unfold crystalAtoms
    rw [if_neg (not_le.2 (siliconGood [0]).volume), if_neg (by simp [siliconInput]), if_neg (by simp [siliconInput]),
      if_neg (by simp [siliconInput])]
    have h3 : mapOutcome (getMassVariance elementTable) (siliconInput [0]).speciesNames =
        .ok [(⟨20164270215294942, 20⟩ : Decimal).val] := by
      show mapOutcome (getMassVariance elementTable) [['S', 'i']] = _
      simp only [mapOutcome, e, Outcome.bind_eq, Outcome.bind_ok]
    simp only [h3, h1, h2, Outcome.bind_eq, Outcome.bind_ok]
    rfl
  · unfold Decimal.val
    norm_num

/-- The same element has different masses in crystals read by different parsers: the reader for Wannier Hamiltonians (and
that for the XML file) leaves the masses in atomic mass units, where the one for phonopy converts them. -/
theorem C158_violated_units (amu : ℚ) (hamu : amu ≠ 1) (e : Element) (he : e ∈ elementTable) :
    ∃ x y, phonopyMasses elementTable amu [e.symbol] = .ok [x] ∧ wannierMasses elementTable [e.symbol] = .ok [y] ∧
      x ≠ y := by
  refine ⟨e.mass.val * amu, e.mass.val, ?_, ?_, ?_⟩
  · simp only [phonopyMasses, mapOutcome, getMass_val e he, Outcome.bind_eq, Outcome.bind_ok]
  · simp only [wannierMasses, mapOutcome, getMass_val e he, Outcome.bind_eq, Outcome.bind_ok]
  · have hpos := (C158_table.1 e he).2.2.1
    intro h
    exact hamu (mul_left_cancel₀ (ne_of_gt hpos) (h.trans (mul_one _).symm))

/-- A case that meets the hypotheses, with both lists in the input file. -/
example : ∃ l, crystalAtoms elementTable (siliconInput [1 / 1000]) = .ok l ∧ l.length = 1 := by
  obtain ⟨l, h, hl, -⟩ := C158_atoms_partial (siliconInput [1 / 1000]) (siliconGood _)
    (Or.inr ⟨by decide, rfl, by simp [siliconInput]⟩) (Or.inr ⟨rfl, by simp [siliconInput]⟩)
  exact ⟨l, h, hl⟩

end Verif.Props
