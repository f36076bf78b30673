import Verif.Spec.PhElApp
import Verif.Props.ActiveRun
import Verif.Props.PhEl
import Verif.Props.TimesFile
import Verif.Proofs.Wigner

/-! # Lemmas for C181 -/
namespace Verif.Proofs
open Verif.Model Verif.Spec Verif.Props

/-- The window centred on the chemical potentials. -/
theorem ctor_centered (pl : Option ℝ) (m muMin muMax : ℝ) (hm : 0 ≤ m) (M : WindowMethod)
    (h : windowCtor "muCenteredEnergy" pl (some (-1.25 * m, 1.25 * m)) muMin muMax = .ok M) :
    M = .energy (muMin - 1.25 * m) (muMax + 1.25 * m) := by
  unfold windowCtor at h
  rw [if_neg (by decide), if_neg (by decide), if_pos rfl] at h
  have h1 : |min (-1.25 * m) (1.25 * m)| = 1.25 * m := by
    rw [min_eq_left (by linarith), abs_of_nonpos (by linarith)]; ring
  have h2 : |max (-1.25 * m) (1.25 * m)| = 1.25 * m := by
    rw [max_eq_right (by linarith), abs_of_nonneg (by linarith)]
  simp only [h1, h2] at h
  split at h
  · cases h
  · cases h; rfl

/-- The bands the electrons keep. -/
theorem select_near {nProc rank : Nat} {lookup : V3 Rat → Outcome Int} {rots : List M3} (A : PhElApp)
    (h : IrrSetup nProc rank A.numK A.kCoords lookup rots)
    (hirr : setIrreduciblePoints nProc rank A.numK A.kCoords lookup rots none [] = .ok A.kIrr)
    (hH : SymmetricEnergies rots A.kCoords A.numK A.bands A.H)
    (hasc : ∀ q b b', b ≤ b' → b' < A.bands → A.H.energy q b ≤ A.H.energy q b')
    (hpos : ∃ w ∈ A.phonons.arrays.energies, 0 < w) (sweep : Sweep) (temps : List ℝ)
    (sel : Nat → Option (Nat × Nat)) (hb : A.select sweep temps = .ok sel) (ik b : Nat) (hik : ik < A.numK) :
    (∃ p, sel ik = some p ∧ p.1 ≤ b ∧ b ≤ p.2) ↔ b < A.bands ∧ NearFermi A sweep (A.H.energy (A.kCoords ik) b) := by
  obtain ⟨w0, hw0, hw0p⟩ := hpos
  have hne : A.phonons.arrays.energies ≠ [] := by intro he; rw [he] at hw0; simp at hw0
  set m := listMax A.phonons.arrays.energies with hmdef
  have hm : w0 ≤ m := mem_le_listMax _ _ hw0
  have hm0 : 0 ≤ m := by linarith
  unfold PhElApp.select at hb
  rw [Outcome.bind_eq_ok_iff] at hb
  obtain ⟨w, hw, hb⟩ := hb
  unfold PhElApp.window maxEnergy at hw
  rw [if_neg hne] at hw
  simp only [Outcome.bind_eq, Outcome.bind_ok, Outcome.ok.injEq] at hw
  unfold builderSelect at hb
  rw [if_pos (.inl rfl), Outcome.bind_eq_ok_iff] at hb
  obtain ⟨W, hW, hb⟩ := hb
  injection hb with hb
  have htab : sweep.table ≠ [] := by
    intro he
    unfold postWindow at hW
    rw [if_pos he] at hW
    cases hW
  obtain ⟨w1, w2, w3, w4, w5⟩ := postWindow_ok _ _ _ _ hW
  have hM : W.method = .energy (W.muMin - 1.25 * m) (W.muMax + 1.25 * m) := by
    rw [← hw] at w5
    exact ctor_centered _ m _ _ hm0 _ w5
  obtain ⟨q1, q2⟩ := equiv_related h A.kIrr hirr ik hik
  have hnear : ∀ e, NearFermi A sweep e ↔ W.muMin - 1.25 * m < e ∧ e < W.muMax + 1.25 * m := by
    intro e
    constructor
    · rintro ⟨v, hv, r, hr, r', hr', g1, g2⟩
      have hvm : v ≤ m := mem_le_listMax _ _ hv
      have l1 : W.muMin ≤ r.chemicalPotential := by rw [w3]; exact listMin_le_mem _ _ (List.mem_map.mpr ⟨r, hr, rfl⟩)
      have l2 : r'.chemicalPotential ≤ W.muMax := by rw [w4]; exact mem_le_listMax _ _ (List.mem_map.mpr ⟨r', hr', rfl⟩)
      constructor <;> linarith
    · rintro ⟨g1, g2⟩
      have hmn : sweep.table.map (·.chemicalPotential) ≠ [] := by simpa using htab
      obtain ⟨r, hr, er⟩ := List.mem_map.mp (listMin_mem _ hmn)
      obtain ⟨r', hr', er'⟩ := List.mem_map.mp (listMax_mem _ hmn)
      refine ⟨m, listMax_mem _ hne, r, hr, r', hr', ?_, ?_⟩
      · rw [er, ← w3]; exact g1
      · rw [er', ← w4]; exact g2
  have key : (∃ p, sel ik = some p ∧ p.1 ≤ b ∧ b ≤ p.2) ↔
      b < A.bands ∧ NearFermi A sweep (A.H.energy (A.kCoords (A.kIrr.equiv ik)) b) := by
    rw [← hb]
    simp only [postSelect]
    rw [← mem_select, hM, hnear]
    simp only [windowApply]
    rw [C31_bands]
    · constructor
      · rintro ⟨e, h1, h2⟩
        have hbb : b < A.bands := by
          have := (List.getElem?_eq_some_iff.mp h1).1
          simpa using this
        rw [range_energy A.bands b _ hbb] at h1
        cases h1
        exact ⟨hbb, h2⟩
      · rintro ⟨hbb, h2⟩
        exact ⟨_, range_energy A.bands b _ hbb, h2⟩
    · rw [List.pairwise_map]
      refine List.Pairwise.imp_of_mem ?_ (List.pairwise_lt_range (n := A.bands))
      intro x y hx hy hxy
      exact hasc _ x y hxy.le (List.mem_range.mp hy)
  rw [key]
  constructor
  · rintro ⟨hbb, g⟩
    rw [hH _ _ _ q1 hik hbb q2] at g
    exact ⟨hbb, g⟩
  · rintro ⟨hbb, g⟩
    rw [← hH _ _ _ q1 hik hbb q2] at g
    exact ⟨hbb, g⟩

/-- A sum over the states kept is a sum over the mesh. -/
theorem sum_kept (n bands : Nat) (sel : Nat → Option (Nat × Nat)) (keep : Nat → Nat → Prop)
    (hsel : ∀ ik b, ik < n → ((∃ p, sel ik = some p ∧ p.1 ≤ b ∧ b ≤ p.2) ↔ b < bands ∧ keep ik b))
    (f : List Nat × List Nat × List Nat)
    (hf : let serial := (List.range n).filterMap fun ik => (sel ik).map fun b => (ik, b)
      f = (serial.map (·.1), serial.map (·.2.1), serial.map (·.2.2))) (g : Nat → Nat → ℝ) :
    open Classical in
    ((List.range f.1.length).map fun ka =>
      ((List.range (f.2.2.getD ka 0 + 1 - f.2.1.getD ka 0)).map fun i => g (f.1.getD ka 0) (f.2.1.getD ka 0 + i)).sum).sum =
      ∑ ik ∈ Finset.range n, ∑ b ∈ Finset.range bands, if keep ik b then g ik b else 0 := by
  classical
  simp only at hf
  have hone : ∀ ik, ik < n → (∑ b ∈ Finset.range bands, if keep ik b then g ik b else 0) =
      match sel ik with
      | none => 0
      | some p => ((List.range (p.2 + 1 - p.1)).map fun i => g ik (p.1 + i)).sum := by
    intro ik hik
    have hs := fun b => hsel ik b hik
    cases hp : sel ik with
    | none =>
      apply Finset.sum_eq_zero
      intro b hb
      rw [if_neg]
      intro hk
      obtain ⟨p, e, _⟩ := (hs b).mpr ⟨Finset.mem_range.mp hb, hk⟩
      rw [hp] at e
      cases e
    | some p =>
      simp only
      rw [list_range_sum, ← Finset.sum_filter]
      have : (Finset.range bands).filter (fun b => keep ik b) = Finset.Ico p.1 (p.2 + 1) := by
        ext b
        rw [Finset.mem_filter, Finset.mem_range, ← hs b, Finset.mem_Ico]
        constructor
        · rintro ⟨p', e, h1, h2⟩
          rw [hp] at e
          cases e
          omega
        · rintro ⟨h1, h2⟩
          exact ⟨p, hp, h1, by omega⟩
      rw [this, Finset.sum_Ico_eq_sum_range]
  rw [Finset.sum_congr rfl fun ik hik => hone ik (Finset.mem_range.mp hik), ← list_range_sum]
  generalize List.range n = l at hf
  have hrow : ∀ S : List (Nat × (Nat × Nat)),
      ((List.range (S.map (·.1)).length).map fun ka =>
        ((List.range ((S.map (·.2.2)).getD ka 0 + 1 - (S.map (·.2.1)).getD ka 0)).map fun i =>
          g ((S.map (·.1)).getD ka 0) ((S.map (·.2.1)).getD ka 0 + i)).sum).sum =
      (S.map fun s => ((List.range (s.2.2 + 1 - s.2.1)).map fun i => g s.1 (s.2.1 + i)).sum).sum := by
    intro S
    congr 1
    apply List.ext_getElem
    · simp
    · intro i h1 h2
      have hi : i < S.length := by simpa using h2
      simp [hi]
  rw [hf]
  simp only
  rw [hrow]
  clear hf hone hsel hrow
  induction l with
  | nil => simp
  | cons a t ih =>
    cases hp : sel a with
    | none => simp only [List.filterMap_cons, hp, Option.map_none, List.map_cons, List.sum_cons, ih, zero_add]
    | some p => simp only [List.filterMap_cons, hp, Option.map_some, List.map_cons, List.sum_cons, ih]

end Verif.Proofs
