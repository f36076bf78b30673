import Verif.Proofs.ElectronCount
import Verif.Proofs.GroundState
import Verif.Proofs.Device
import Verif.Props.ElFourier

namespace Verif.Props
open Verif.Model Verif.Spec

/-! ## C163 the number of electrons -/

/-- C163 (partial), bands interpolated from the XML file: files that are accepted give the filling of the calculation, also when
bands are removed below a window of energies.  In Quantum ESPRESSO spin-orbit coupling implies `noncolin`, and such files are
refused (`C163_refused`).  Missing: numbers of electrons that are not integers (`C163_violated_fraction`). -/
theorem C163_xml_partial (f : XmlElectrons) (hqe : f.spinOrbit → f.noncolin) (so : Bool) (n : ℝ)
    (hx : xmlElectrons f = .ok (so, n)) (z : Int) (hz : f.nelec = z)
    (g : GroundInput) (hso : g.spinOrbit = so) (distributed : Bool) (shares : List (List ℝ)) :
    (g.numOccupied = some n → occupiedProg g distributed shares = .ret (fillingLeft f.nelec f.noncolin 0)) ∧
    ∀ (β : Type) (lo hi : ℝ) (bands : List (List ℝ × β)) (rows : List β) (n' : ℝ) (first : Nat),
      (∀ i < first, ∀ b, bands[i]? = some b → ∀ x ∈ b.1, ¬ (lo ≤ x ∧ x ≤ hi)) →
      (∃ b, bands[first]? = some b ∧ ∃ x ∈ b.1, lo ≤ x ∧ x ≤ hi) →
      trimBands lo hi so bands n = .ok (rows, n') → g.numOccupied = some n' →
      occupiedProg g distributed shares = .ret (fillingLeft f.nelec f.noncolin first) := by
  unfold xmlElectrons at hx
  rw [Outcome.bind_eq_ok_iff] at hx
  obtain ⟨m, hm, hx⟩ := hx
  have hmz : m = z := by
    unfold truncToInt at hm
    rw [hz, Int.floor_intCast, Int.ceil_intCast, ite_self] at hm
    exact (i32_eq_ok hm).1
  subst hmz
  split at hx
  · cases hx
  · rename_i hl
    simp only [Bool.or_eq_true, not_or, Bool.not_eq_true] at hl
    have hs : f.spinOrbit = false := by
      cases h : f.spinOrbit
      · rfl
      · have := hqe h; rw [hl.2] at this; cases this
    rw [hs] at hx
    simp only [Bool.false_eq_true, if_false, Outcome.bind_eq, Outcome.bind_ok, Outcome.ok.injEq, Prod.mk.injEq] at hx
    obtain ⟨rfl, rfl⟩ := hx
    constructor
    · intro hg
      simp [occupiedProg, hg, GroundInput.spinFactor, hso, fillingLeft, electronsPerState, hl.2, hz]
    · intro β lo hi bands rows n' first hbelow hfirst ht hg
      rw [trimBands_val] at ht
      have hfind : (List.range bands.length).find? (fun ib => keepBand lo hi ((bands[ib]?.map Prod.fst).getD [])) =
          some first := by
        obtain ⟨b, hb, hbx⟩ := hfirst
        have hlt : first < bands.length := by
          by_contra h
          rw [List.getElem?_eq_none (not_lt.mp h)] at hb
          cases hb
        rw [List.find?_range_eq_some]
        refine ⟨?_, by simpa using hlt, ?_⟩
        · rw [hb, Option.map_some, Option.getD_some, keepBand_iff]; exact hbx
        · intro i hi'
          have hil : i < bands.length := by omega
          rw [List.getElem?_eq_getElem hil, Option.map_some, Option.getD_some]
          have := hbelow i hi' bands[i] (List.getElem?_eq_getElem hil)
          rw [Bool.not_eq_true', Bool.eq_false_iff, Ne, keepBand_iff]
          rintro ⟨x, hx, h⟩
          exact this x hx h
      rw [hfind] at ht
      simp only [Outcome.ok.injEq, Prod.mk.injEq] at ht
      simp only [occupiedProg, hg, GroundInput.spinFactor, hso, fillingLeft, electronsPerState, hl.2, hz, ← ht.2]
      simp
      ring

/-- Calculations with spin are refused. -/
theorem C163_refused (f : XmlElectrons) (h : f.lsda ∨ f.noncolin) (z : Int) (hz : f.nelec = z) (h1 : intMin ≤ z)
    (h2 : z ≤ intMax) : xmlElectrons f = .error := by
  unfold xmlElectrons
  rw [hz, truncToInt_cast z h1 h2]
  simp only [Outcome.bind_eq, Outcome.bind_ok]
  rw [if_pos (by simpa using h)]

/-- C163 (partial), Wannier functions: with the file of the coupling, the filling is that of the calculation, less the bands
that were not given to Wannier90, without spin-orbit coupling.  Missing: spin-orbit coupling (`C163_violated_spin_orbit`) and
numbers of electrons that are not integers. -/
theorem C163_wannier_partial (z numSpin offset : Int) (hs : numSpin ≠ 2) (h0 : 0 ≤ z) (h1 : z ≤ intMax)
    (ho : 0 ≤ offset) (ho' : 2 * offset ≤ intMax) (g : GroundInput) (hso : g.spinOrbit = false) :
    ∃ n, wannierElectrons z numSpin offset = .ok n ∧ (g.numOccupied = some n →
      ∀ distributed shares, occupiedProg g distributed shares = .ret (fillingLeft z false offset)) := by
  have hm : intMin = -2147483648 := rfl
  have hM : intMax = 2147483647 := rfl
  refine ⟨((z - offset * 2 : Int) : ℝ), ?_, ?_⟩
  · unfold wannierElectrons filledWannier couplingElectrons
    rw [truncToInt_cast z (by omega) h1]
    simp only [Outcome.bind_eq, Outcome.bind_ok, if_neg hs, cmul, csub]
    rw [i32_ok (by omega) (by omega)]
    simp only [Outcome.bind_ok]
    rw [i32_ok (by omega) (by omega)]
    rfl
  · intro hg distributed shares
    simp [occupiedProg, hg, GroundInput.spinFactor, hso, fillingLeft, electronsPerState]
    ring

/-- With spin-orbit coupling, the filling is that of the calculation if all the bands were given to Wannier90. -/
theorem C163_wannier_spin_orbit_partial (z numSpin : Int) (hs : numSpin ≠ 2) (h0 : 0 ≤ z) (h1 : z ≤ intMax)
    (g : GroundInput) (hso : g.spinOrbit = true) :
    ∃ n, wannierElectrons z numSpin 0 = .ok n ∧ (g.numOccupied = some n →
      ∀ distributed shares, occupiedProg g distributed shares = .ret (fillingLeft z true 0)) := by
  have hm : intMin = -2147483648 := rfl
  have hM : intMax = 2147483647 := rfl
  refine ⟨(z : ℝ), ?_, ?_⟩
  · unfold wannierElectrons filledWannier couplingElectrons
    rw [truncToInt_cast z (by omega) h1]
    simp only [Outcome.bind_eq, Outcome.bind_ok, if_neg hs, cmul, csub, zero_mul]
    rw [i32_ok (by omega) (by omega)]
    simp only [Outcome.bind_ok, sub_zero]
    rw [i32_ok (by omega) (by omega)]
    rfl
  · intro hg distributed shares
    simp [occupiedProg, hg, GroundInput.spinFactor, hso, fillingLeft, electronsPerState]

/-- The full C163 is violated: with spin-orbit coupling, a band that is not given to Wannier90 holds one electron, and two are
taken away: whenever there is such a band, the filling is too small. -/
theorem C163_violated_spin_orbit (z numSpin offset : Int) (n : ℝ) (ho : 0 < offset)
    (hn : wannierElectrons z numSpin offset = .ok n) (g : GroundInput) (hso : g.spinOrbit = true)
    (hg : g.numOccupied = some n) (distributed : Bool) (shares : List (List ℝ)) :
    ∃ x, occupiedProg g distributed shares = .ret x ∧ x = fillingLeft z true offset - offset ∧
      x < fillingLeft z true offset := by
  unfold wannierElectrons at hn
  rw [Outcome.bind_eq_ok_iff] at hn
  obtain ⟨m, hm, hn⟩ := hn
  rw [Outcome.bind_eq_ok_iff] at hn
  obtain ⟨m', hm', hn⟩ := hn
  have e1 : m' = m := by
    unfold couplingElectrons at hm'
    split at hm'
    · cases hm'
    · cases hm'; rfl
  subst e1
  have e2 : m' = z - offset * 2 := by
    unfold filledWannier at hm
    rw [Outcome.bind_eq_ok_iff] at hm
    obtain ⟨k, hk, hm⟩ := hm
    have : k = z := by
      unfold truncToInt at hk
      rw [Int.floor_intCast, Int.ceil_intCast, ite_self] at hk
      exact (i32_eq_ok hk).1
    subst this
    split at hm
    · cases hm
    · rw [Outcome.bind_eq_ok_iff] at hm
      obtain ⟨r, hr, hm⟩ := hm
      have hr' : r = offset * 2 := (i32_eq_ok hr).1
      subst hr'
      exact (i32_eq_ok hm).1
  subst e2
  rw [Outcome.ok.injEq] at hn
  refine ⟨n, ?_, ?_, ?_⟩
  · simp [occupiedProg, hg, GroundInput.spinFactor, hso]
  · rw [← hn]; push_cast; simp [fillingLeft, electronsPerState]; ring
  · rw [← hn]
    have : (0 : ℝ) < offset := by exact_mod_cast ho
    push_cast
    simp [fillingLeft, electronsPerState]
    linarith

/-- The full C163 is violated: with 19/2 electrons in the cell (a doped calculation), half an electron is lost on both ways. -/
theorem C163_violated_fraction :
    xmlElectrons ⟨19 / 2, false, false, false⟩ = .ok (false, 9) ∧ wannierElectrons (19 / 2) 1 0 = .ok 9 ∧
    fillingLeft (19 / 2) false 0 = 19 / 4 ∧
    ∀ g : GroundInput, g.spinOrbit = false → g.numOccupied = some 9 →
      ∀ distributed shares, occupiedProg g distributed shares = .ret (9 / 2) := by
  have hd : truncToInt (19 / 2) = .ok 9 := by
    unfold truncToInt
    rw [if_pos (by norm_num)]
    have : ⌊(19 / 2 : ℝ)⌋ = 9 := by rw [Int.floor_eq_iff]; norm_num
    rw [this]; rfl
  refine ⟨?_, ?_, ?_, ?_⟩
  · simp [xmlElectrons, hd]
  · simp [wannierElectrons, filledWannier, couplingElectrons, hd, cmul, csub, i32, intMin, intMax]
  · norm_num [fillingLeft, electronsPerState]
  · intro g hg hn distributed shares
    simp [occupiedProg, hn, GroundInput.spinFactor, hg]

/-- Ten electrons, one band left out: four bands are filled. -/
example : ∃ n, wannierElectrons 10 1 1 = .ok n ∧
    occupiedProg ⟨some n, none, false, 4, 1, 1, 1⟩ true [] = .ret 4 := by
  obtain ⟨n, h1, h2⟩ := C163_wannier_partial 10 1 1 (by norm_num) (by norm_num) (by decide) (by norm_num) (by decide)
    ⟨none, none, false, 4, 1, 1, 1⟩ rfl
  refine ⟨n, by simpa using h1, ?_⟩
  obtain ⟨m, h3, h4⟩ := C163_wannier_partial 10 1 1 (by norm_num) (by norm_num) (by decide) (by norm_num) (by decide)
    ⟨some n, none, false, 4, 1, 1, 1⟩ rfl
  rw [h1, Outcome.ok.injEq] at h3
  rw [h4 (by rw [h3]) true []]
  norm_num [fillingLeft, electronsPerState]

/-- Ten electrons in the XML file. -/
example : xmlElectrons ⟨10, false, false, false⟩ = .ok (false, 10) ∧
    occupiedProg ⟨some 10, none, false, 8, 1, 1, 1⟩ true [] = .ret (fillingLeft 10 false 0) := by
  have hx : xmlElectrons ⟨10, false, false, false⟩ = .ok (false, 10) := by
    have := truncToInt_cast 10 (by decide) (by decide)
    simp only [Int.cast_ofNat] at this
    simp [xmlElectrons, this]
  exact ⟨hx, (C163_xml_partial ⟨10, false, false, false⟩ (by simp) false 10 hx 10 (by norm_num)
    ⟨some 10, none, false, 8, 1, 1, 1⟩ rfl true []).1 rfl⟩

end Verif.Props
