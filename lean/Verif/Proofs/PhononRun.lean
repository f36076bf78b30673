import Verif.Model.PhononRun
import Verif.Spec.PhononRun
import Verif.Props.Atoms
import Verif.Props.BandsFile
import Verif.Props.Phonopy
import Verif.Props.QeForce

namespace Verif.Proofs
open Verif.Model Verif.Spec Verif.Props

variable {A n1 n2 n3 S : ℕ}

/-- The crystal as the constructor of the Hamiltonian sees it. -/
noncomputable def HarmonicCrystal.view (X : HarmonicCrystal A n1 n2 n3) (cell : Cell) : PhCrystal A :=
  ⟨X.d, cell.reciprocal, cell.volume, X.pos, X.mass, X.eps, X.Z⟩

def HarmonicCrystal.tensor (X : HarmonicCrystal A n1 n2 n3) : FcVec A n1 n2 n3 := fun e =>
  X.Phi e.2.2.2.2.2.1 ⟨e.1.val, e.2.1.val, e.2.2.1.val⟩ e.2.2.2.2.2.2 e.2.2.2.1 e.2.2.2.2.1

noncomputable def crystalRun [NeZero n1] [NeZero n2] [NeZero n3] (R : BandsRun) (X : HarmonicCrystal A n1 n2 n3) : Outcome (Option BandsFile) :=
  (makeCell X.d).bind fun cell => (makePhononH0 R.rule (HarmonicCrystal.view X cell) (HarmonicCrystal.tensor X)).bind fun s =>
    phononBandsApp R.ry R.ang R.want (A * 3) (phononView (R.eig A) s.1 s.2 (R.arrange (s.1.gVectors n1 n2 n3))) cell (R.wrap cell)
      ⟨X.d, List.ofFn X.pos, List.ofFn fun b => String.ofList (X.name b)⟩ R.segs R.delta R.batchSize R.sched R.size R.rank

structure Gives (x : HarmonicInput) (X : HarmonicCrystal A n1 n2 n3) : Prop where
  cell : x.cell = X.d
  positions : x.positions = List.ofFn X.pos
  count : x.species.length = A
  masses : x.masses.length = x.names.length
  known : ∀ y ∈ x.names, ∃ e ∈ elementTable, e.symbol = y
  atom : ∀ b : Fin A, ∃ k : Nat, x.species[b.val]? = some (k : Int) ∧ x.names[k]? = some (X.name b) ∧ x.masses[k]? = some (X.mass b)
  eps : x.eps = X.eps
  born : ∀ b : Fin A, x.born b = X.Z b
  grid : x.grid = ⟨n1, n2, n3⟩
  force : ∀ (b b' : Fin A) (r1 : Fin n1) (r2 : Fin n2) (r3 : Fin n3) i j, x.force ⟨r1.val, r2.val, r3.val⟩ b b' i j = X.Phi b ⟨r1.val, r2.val, r3.val⟩ b' i j

theorem read_species {α : Type} (l : List α) (sp : List Int) (g : Fin A → α) (hc : sp.length = A)
    (h : ∀ b : Fin A, ∃ k : Nat, sp[b.val]? = some (k : Int) ∧ l[k]? = some (g b)) : mapOutcome (readInt l) sp = .ok (List.ofFn g) := by
  subst hc
  have e : ∀ (sp : List Int) (l' : List α), List.Forall₂ (fun s y => readInt l s = .ok y) sp l' → mapOutcome (readInt l) sp = .ok l' := by
    intro sp l' hf
    induction hf with
    | nil => rfl
    | cons h1 _ ih => simp only [mapOutcome, Outcome.bind_eq, h1, ih, Outcome.bind_ok]
  apply e
  rw [List.forall₂_iff_get]
  refine ⟨by simp, ?_⟩
  intro i h1 h2
  obtain ⟨k, k1, k2⟩ := h ⟨i, h1⟩
  simp only [List.get_eq_getElem, List.getElem_ofFn]
  rw [List.getElem?_eq_getElem h1, Option.some.injEq] at k1
  rw [k1]
  unfold readInt readAt
  rw [if_neg (by omega), Int.toNat_natCast]
  simp only [k2]

theorem bandsOfInput_eq [NeZero n1] [NeZero n2] [NeZero n3] (R : BandsRun) (x : HarmonicInput) (X : HarmonicCrystal A n1 n2 n3) (h : Gives x X) :
    bandsOfInput R x = crystalRun R X := by
  have hl : x.positions.length = A := by rw [h.positions]; simp
  unfold bandsOfInput
  rw [hl, h.grid]
  simp only [Int.toNat_natCast]
  unfold harmonicRun crystalRun
  rw [h.cell]
  simp only [Outcome.bind_eq]
  congr 1
  funext cell
  rw [if_neg (by rw [h.count, hl]; simp), if_neg (by simp [h.masses])]
  rw [mapOutcome_eq_map (getMassVariance elementTable) (fun y => match getMassVariance elementTable y with | .ok r => r | _ => 0) x.names (by
    intro y hy
    obtain ⟨e, he, rfl⟩ := h.known y hy
    rw [(C158_table.1 e he).2.1])]
  rw [read_species x.masses x.species X.mass h.count (fun b => by obtain ⟨k, k1, _, k3⟩ := h.atom b; exact ⟨k, k1, k3⟩)]
  rw [read_species x.names x.species X.name h.count (fun b => by obtain ⟨k, k1, k2, _⟩ := h.atom b; exact ⟨k, k1, k2⟩)]
  simp only [Outcome.bind_ok]
  rw [dif_pos ⟨Nat.pos_of_neZero n1, Nat.pos_of_neZero n2, Nat.pos_of_neZero n3⟩]
  have hc : (⟨X.d, cell.reciprocal, cell.volume, fun a => x.positions.getD a 0, fun a => (List.ofFn X.mass).getD a 0, x.eps, fun a => x.born a⟩ : PhCrystal A) =
      HarmonicCrystal.view X cell := by
    unfold HarmonicCrystal.view
    congr 1
    · funext a
      rw [h.positions, List.getD_eq_getElem?_getD, List.getElem?_eq_getElem (by simp)]
      simp
    · funext a
      rw [List.getD_eq_getElem?_getD, List.getElem?_eq_getElem (by simp)]
      simp
    · exact h.eps
    · funext a
      exact h.born a
  have hf : (fun e : FcIx A n1 n2 n3 => x.force ⟨e.1.val, e.2.1.val, e.2.2.1.val⟩ e.2.2.2.2.2.1 e.2.2.2.2.2.2 e.2.2.2.1 e.2.2.2.2.1) =
      HarmonicCrystal.tensor X := by
    funext e
    exact h.force _ _ _ _ _ _ _
  rw [hc, hf, h.positions, List.map_ofFn]
  rfl

theorem gives_espresso (X : HarmonicCrystal A n1 n2 n3) (pr : Printer) (other : Token) (c : FcContents S A n1 n2 n3) (hS : S < 2147483647)
    (h1 : 0 < n1) (h2 : 0 < n2) (h3 : 0 < n3) (h : EspressoSays X c) (hn : ∀ s, ∃ e ∈ elementTable, e.symbol = (c.name s).toList) :
    ∃ f, parsePhHarmonic (fcFile pr other c) = .ok f ∧ Gives f.toInput X := by
  obtain ⟨alat, hlat, hpos⟩ := h.lattice
  obtain ⟨f, hf, e1, e2, e3, e4, e5, e6, e7, e8, e9⟩ := C152_read_partial pr other c hS h1 h2 h3 alat _ hlat
  refine ⟨f, hf, ?_⟩
  constructor
  · unfold FcParsed.toInput
    simp only [e1]
    funext i k
    fin_cases k <;> rfl
  · unfold FcParsed.toInput
    apply List.ext_getElem?
    intro i
    simp only [List.getElem?_map]
    by_cases hi : i < A
    · rw [e5 ⟨i, hi⟩, List.getElem?_eq_getElem (by simpa using hi)]
      simp only [Option.map_some, List.getElem_ofFn, Option.some.injEq]
      funext a
      exact hpos _ _
    · rw [List.getElem?_eq_none (by omega), List.getElem?_eq_none (by simp; omega)]
      rfl
  · simp [FcParsed.toInput, e3]
  · simp [FcParsed.toInput]
  · intro y hy
    simp only [FcParsed.toInput, List.mem_map] at hy
    obtain ⟨s, hs, rfl⟩ := hy
    obtain ⟨i, hi, rfl⟩ := List.mem_iff_getElem.mp hs
    have := e4 ⟨i, by omega⟩
    rw [List.getElem?_eq_getElem hi, Option.some.injEq] at this
    rw [this]
    exact hn _
  · intro b
    refine ⟨(c.kind b).val, ?_, ?_, ?_⟩
    · simp only [FcParsed.toInput, List.getElem?_map, e5 b, Option.map_some]
    · simp only [FcParsed.toInput, List.getElem?_map, e4 (c.kind b), Option.map_some, h.name b]
    · simp only [FcParsed.toInput, List.getElem?_map, e4 (c.kind b), Option.map_some, h.mass b]
  · simp only [FcParsed.toInput]
    funext i j
    have := e6 i
    rw [List.getD_eq_getElem?_getD, this]
    rcases h.polar with ⟨hd, hz⟩ | hd
    · rw [hd, hz.1]; rfl
    · rw [hd]; rfl
  · intro b
    simp only [FcParsed.toInput]
    funext i j
    have := e7 b i
    rw [Option.bind_eq_some_iff] at this
    obtain ⟨z, hz, hz'⟩ := this
    rw [List.getD_eq_getElem?_getD, List.getD_eq_getElem?_getD, hz, Option.getD_some, hz', Option.getD_some]
    rcases h.polar with ⟨hd, hz⟩ | hd
    · rw [hd, hz.2]; rfl
    · rw [hd]
  · simp only [FcParsed.toInput, e8]
  · intro b b' r1 r2 r3 i j
    simp only [FcParsed.toInput, Int.toNat_natCast]
    rw [e9, h.force]

/-- The crystal with other force constants. -/
def withForces (X : HarmonicCrystal A n1 n2 n3) (Phi : HarmonicFc A) : HarmonicCrystal A n1 n2 n3 := { X with Phi := Phi }

theorem gives_phonopy (hA : 0 < A) (X : HarmonicCrystal A n1 n2 n3) (bohr ryd amu : ℝ) (mass : List Char → Outcome ℝ) (evAng : String → Bool) (u : FcUnit)
    (f : PhonopyFile) (born : Option (List BornLine)) (fc : Fc2File) (h : PhonopySays X bohr ryd amu mass u f born fc) (hd : LatticeApart6 X.d)
    (hn : ∀ b, ∃ e ∈ elementTable, e.symbol = X.name b) (hinj : born ≠ none → Function.Injective X.name) (hu : u.value bohr ryd ≠ 0) :
    ∃ p, parsePhonopy bohr ryd amu mass evAng true f.lines born fc = .ok p ∧
      Gives p.toInput (withForces X fun b n b' i j => X.Phi b n b' i j / u.value bohr ryd * (if evAng u.name then bohr ^ 2 / ryd else 1)) := by
  obtain ⟨own, frac, order, Psi, hf, ho, hN, hpos, hfc, hPsi⟩ := h.files
  have hl : 0 < order.length := (List.getElem?_eq_some_iff.mp ho.home).1
  obtain ⟨m, hm⟩ : ∃ m : Fin A → ℝ, ∀ b, mass (X.name b) = .ok (m b) ∧ m b * amu = X.mass b := ⟨fun b => (h.mass b).choose, fun b => (h.mass b).choose_spec⟩
  obtain ⟨bs, hb0, hb, hbe, hbz⟩ : ∃ bs : BornState, (born = none → bs = ⟨none, []⟩) ∧
      (∀ ls, born = some ls → bornFile A (Finset.univ.image X.name).card ls = .ok bs) ∧
      (∀ i j : Fin 3, (bs.dielectric.getD []).getD (3 * i + j) 0 = X.eps i j) ∧
      ∀ (b : Fin A) (i j : Fin 3), (bs.charges.getD b []).getD (3 * i + j) 0 = X.Z b i j := by
    rcases h.polar with ⟨hb, hz⟩ | ⟨ls, hb, hfile⟩
    · refine ⟨⟨none, []⟩, fun _ => rfl, by simp [hb], ?_, ?_⟩
      · intro i j; rw [hz.1]; simp
      · intro b i j; rw [hz.2]; simp
    · have hcard : (Finset.univ.image X.name).card = A := by
        rw [Finset.card_image_of_injective _ (hinj (by simp [hb]))]; simp
      refine ⟨⟨some (nineNumbers X.eps), (List.ofFn X.Z).map nineNumbers⟩, by simp [hb], ?_, ?_, ?_⟩
      · intro ls' hls
        rw [hb, Option.some.injEq] at hls
        subst hls
        unfold bornFile
        rw [readBorn_file A ls X.eps _ hfile (by simp), hcard]
        show (if A < _ then _ else _) = _
        rw [if_neg (by simp)]
      · intro i j
        exact nine_get X.eps i j
      · intro b i j
        rw [show ((List.ofFn X.Z).map nineNumbers).getD b [] = nineNumbers (X.Z b) by
          rw [List.getD_eq_getElem?_getD, List.getElem?_map, List.getElem?_eq_getElem (by simp)]
          simp]
        exact nine_get _ i j
  obtain ⟨p, e, hr, hV, h2, h3⟩ := parse_core hA f _ own X.d X.name frac order bohr ryd amu mass m evAng hf ho hd hN (fun b => (hm b).1) fc
    (by rw [hfc.map]; simp) (by rw [hfc.size0]; exact (Nat.mul_pos hA hl).ne')
    (fun n b b' i j => if hb : b < A then if hb' : b' < A then Psi ⟨b, hb⟩ n ⟨b', hb'⟩ i j * (if evAng fc.unit then bohr ^ 2 / ryd else 1) else 0 else 0)
    (by
      intro s c hs b b' hb hb'
      rw [fc2Block_full _ order ho Psi fc _ hfc hN s c hs ⟨b, hb⟩ ⟨b', hb'⟩]
      simp only [hb, hb', dif_pos])
    born bs hb0 hb
  refine ⟨p, e, ?_⟩
  constructor
  · exact hr.cell
  · show p.positions = _
    apply List.ext_getElem?
    intro i
    by_cases hi : i < A
    · rw [(hr.atom ⟨i, hi⟩).1, List.getElem?_eq_getElem (by simpa using hi)]
      simp only [List.getElem_ofFn, Option.some.injEq]
      funext a
      exact (hpos _ _).symm
    · rw [List.getElem?_eq_none (by have := hr.count; omega), List.getElem?_eq_none (by simp; omega)]
  · simp [PhonopyData.toInput, hr.species]
  · exact hr.masses
  · intro y hy
    obtain ⟨b, rfl⟩ := hr.only y hy
    exact hn b
  · intro b
    obtain ⟨-, k, k1, k2, k3⟩ := hr.atom b
    refine ⟨k, ?_, k2, ?_⟩
    · show (p.species.map Int.ofNat)[b.val]? = _
      rw [List.getElem?_map, k1, Option.map_some]
      rfl
    · show p.masses[k]? = some (X.mass b)
      rw [k3, (hm b).2]
  · show p.dielectric = X.eps
    rw [h2]
    funext i j
    exact hbe i j
  · intro b
    show p.born b = X.Z b
    rw [h3]
    funext i j
    exact hbz b i j
  · exact hr.grid
  · intro b b' r1 r2 r3 i j
    show (p.force _ _ _ _ _).getD 0 = _
    rw [hV _ ((ho.mem _).mpr (by simp only; omega)), Option.getD_some]
    simp only [Fin.is_lt, dif_pos, Fin.eta, withForces, h.unit, ← hPsi]
    rw [mul_div_cancel_right₀ _ hu]

/-- The bands of a crystal. -/
theorem crystalRun_modes [NeZero n1] [NeZero n2] [NeZero n3] (hA : 0 < A) (R : BandsRun) (hR : GoodRun R A) (hrule : R.rule = "") (X : HarmonicCrystal A n1 n2 n3)
    (hX : X.eps = 0) (hm : ∀ b, 0 < X.mass b)
    (hcomp : ∀ b b', CompactCell (fun k i => X.d i k) (fun i => X.pos b i - X.pos b' i) ![n1, n2, n3])
    (file : BandsFile) (hrun : crystalRun R X = .ok (some file)) :
    ∃ (pts : List (V3 ℝ)) (w : Nat → Fin (A * 3) → ℝ) (v : Nat → Fin (A * 3) → Fin A → Fin 3 → ℂ),
      pathPoints R.segs R.delta = .ok pts ∧
      file.energies = (List.range pts.length).map (fun ik => List.ofFn fun s => w ik s * (1000 * R.ry)) ∧ file.energyUnit = "meV" ∧
      ∀ ik (h : ik < pts.length), Commensurate n1 n2 n3 pts[ik] → IsModes (X.fourier pts[ik]) X.mass (w ik) (v ik) := by
  unfold crystalRun at hrun
  obtain ⟨cell, hcell, hrun⟩ := (Outcome.bind_eq_ok_iff _ _ _).mp hrun
  obtain ⟨s, hs, hrun⟩ := (Outcome.bind_eq_ok_iff _ _ _).mp hrun
  have hdir : cell.direct = X.d := by
    unfold makeCell at hcell
    split at hcell
    · cases hcell
    · rw [← Outcome.ok.inj hcell]
  have hsame : s = (HarmonicCrystal.view X cell, HarmonicCrystal.tensor X) := by
    have := hs
    unfold makePhononH0 at this
    rw [hrule, show setAcousticSumRule "" (HarmonicCrystal.view X cell).born (HarmonicCrystal.tensor X) =
      .ok ((HarmonicCrystal.view X cell).born, HarmonicCrystal.tensor X) by simp [setAcousticSumRule]] at this
    dsimp only at this
    split_ifs at this
    exact (Outcome.ok.inj this).symm
  subst hsame
  rw [hR.head] at hrun
  obtain ⟨pts, w, v, h1, -, -, -, -, h2, h3, h4, -⟩ := C177_phonons (R.eig A) hR.solver (HarmonicCrystal.view X cell) hA hm (HarmonicCrystal.tensor X) _
    (hR.arrange _) cell hcell rfl (R.wrap cell) (hR.wrap cell) R.ry R.ang R.want _ R.segs R.delta R.batchSize hR.batch R.sched hR.sched R.size hR.size
    hR.fits hR.fits' file hrun
  have hplain : ¬ (HarmonicCrystal.view X cell).hasDielectric := by
    unfold PhCrystal.hasDielectric HarmonicCrystal.view
    simp [hX]
  refine ⟨pts, w, v, h1, h3, h2, ?_⟩
  intro ik hik hcm
  have hmode := (h4 ik hik).2 hplain
  obtain ⟨z, z0, z1, z2⟩ := hcm
  have hdual : ∀ k, (∑ i, cartesianOf cell.reciprocal pts[ik] i * X.d i k) =
      2 * Real.pi * (if k = 0 then pts[ik].x else if k = 1 then pts[ik].y else pts[ik].z) := by
    intro k
    have d := fun j => (C69_reciprocal X.d cell hcell).1 k j
    rw [hdir] at d
    have d0 := d 0
    have d1 := d 1
    have d2 := d 2
    simp only [Fin.sum_univ_three] at d0 d1 d2 ⊢
    simp only [cartesianOf]
    have : ∀ x y zz : ℝ, (cell.reciprocal 0 0 * x + cell.reciprocal 0 1 * y + cell.reciprocal 0 2 * zz) * X.d 0 k +
        (cell.reciprocal 1 0 * x + cell.reciprocal 1 1 * y + cell.reciprocal 1 2 * zz) * X.d 1 k +
        (cell.reciprocal 2 0 * x + cell.reciprocal 2 1 * y + cell.reciprocal 2 2 * zz) * X.d 2 k =
        (if k = 0 then 2 * Real.pi else 0) * x + (if k = 1 then 2 * Real.pi else 0) * y + (if k = 2 then 2 * Real.pi else 0) * zz := by
      intro x y zz
      rw [← d0, ← d1, ← d2]
      ring
    rw [this]
    fin_cases k <;> simp
  have hint := fun b b' i j => C95_interpolation R.rule (HarmonicCrystal.view X cell) _ (HarmonicCrystal.tensor X) _ hs hcomp hplain
    (cartesianOf cell.reciprocal pts[ik]) z (by
      intro k
      have := hdual k
      show _ * (∑ i, _ * X.d i k) = _
      rw [this]
      fin_cases k
      · simp [← z0]; ring
      · simp [← z1]; ring
      · simp [← z2]; ring) b b' i j
  have hD : dynMatrix (HarmonicCrystal.view X cell) (HarmonicCrystal.tensor X) (cartesianOf cell.reciprocal pts[ik]) = X.fourier pts[ik] := by
    funext a b
    have := hint a.1 b.1 a.2 b.2
    rw [Prod.mk.eta, Prod.mk.eta] at this
    rw [this]
    unfold HarmonicCrystal.fourier
    refine Finset.sum_congr rfl fun m1 _ => Finset.sum_congr rfl fun m2 _ => Finset.sum_congr rfl fun m3 _ => ?_
    have hphase : (∑ k, cartesianOf cell.reciprocal pts[ik] k * ((m1 : ℝ) * X.d k 0 + (m2 : ℝ) * X.d k 1 + (m3 : ℝ) * X.d k 2)) =
        2 * Real.pi * (pts[ik].x * m1 + pts[ik].y * m2 + pts[ik].z * m3) := by
      have e0 := hdual 0
      have e1 := hdual 1
      have e2 := hdual 2
      simp only [Fin.sum_univ_three, if_true, one_ne_zero, if_false, show (2 : Fin 3) ≠ 0 by decide, show (2 : Fin 3) ≠ 1 by decide] at e0 e1 e2 ⊢
      linear_combination (m1 : ℝ) * e0 + (m2 : ℝ) * e1 + (m3 : ℝ) * e2
    show ((HarmonicCrystal.tensor X _ : ℝ) : ℂ) * _ = _
    congr 1
    congr 1
    rw [show (∑ k, cartesianOf cell.reciprocal pts[ik] k * ((m1 : ℝ) * (HarmonicCrystal.view X cell).cell k 0 + (m2 : ℝ) * (HarmonicCrystal.view X cell).cell k 1 +
      (m3 : ℝ) * (HarmonicCrystal.view X cell).cell k 2)) = _ from hphase]
    ring
  rw [← hD]
  exact hmode

end Verif.Proofs
