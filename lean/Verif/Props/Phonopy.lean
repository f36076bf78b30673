import Verif.Proofs.Phonopy3
import Verif.Props.Phono3py

/-!
# Harmonic force constants from phonopy
-/
namespace Verif.Props
open Verif.Model Verif.Spec Verif.Proofs

/-! ## Cases -/

/-- A line with one of the words. -/
def keyLine (s : String) (tok : List YamlWord) (text : List Char) : PhLine := ⟨⟨fun x => decide (x = s), tok⟩, text⟩

/-- A file of displacements for any crystal and supercell, with lengths in Bohr radii. -/
noncomputable def samplePh {A : Nat} (N : V3 Int) (d : Mat3) (name : Fin A → List Char) (frac : Fin A → Fin 3 → ℝ) (order : List (V3 Int)) :
    PhonopyFile where
  head := keyLine "supercell_matrix:" [.word] ['s'] ::
    keyLine "" [.word, .word, .int N.x, .int 0, .int 0] ['-'] ::
    keyLine "" [.word, .word, .int 0, .int N.y, .int 0] ['-'] ::
    keyLine "" [.word, .word, .int 0, .int 0, .int N.z] ['-'] ::
    [⟨⟨fun x => decide (x = "length" ∨ x = "au"), [.word, .word]⟩, ['l']⟩]
  pc := keyLine "primitive_cell:" [.word] ['p']
  plat := keyLine "lattice:" [.word] ['l']
  p := fun k => keyLine "" [.word, .word, .num (d 0 k), .num (d 1 k), .num (d 2 k)] ['-']
  mid := []
  uc := keyLine "unit_cell:" [.word] ['u']
  lat := keyLine "lattice:" [.word] ['l']
  a := fun k => keyLine "" [.word, .word, .num (d 0 k), .num (d 1 k), .num (d 2 k)] ['-']
  atoms := (List.finRange A).flatMap fun b => [keyLine " symbol: " [.word, .word, .word] (symbolText (name b) ['1']),
    keyLine "coordinates: " [.word, .word, .num (frac b 0), .num (frac b 1), .num (frac b 2)] ['c']]
  between := []
  su := keyLine "supercell:" [.word] ['s']
  slat := keyLine "lattice:" [.word] ['l']
  v := fun k => keyLine "" [.word, .word, .num (asFun N k * d 0 k), .num (asFun N k * d 1 k), .num (asFun N k * d 2 k)] ['-']
  coords := ((List.finRange A).flatMap fun b => order.map fun c k => (frac b k + asFun c k) / asFun N k).map fun p =>
    keyLine "coordinates: " [.word, .word, .num (p 0), .num (p 1), .num (p 2)] ['c']

theorem samplePh_describes {A : Nat} (N : V3 Int) (d : Mat3) (name : Fin A → List Char) (frac : Fin A → Fin 3 → ℝ) (order : List (V3 Int)) (bohr : ℝ)
    (hn : ∀ b, name b ≠ [] ∧ ∀ c ∈ name b, c ≠ '#' ∧ c.isWhitespace = false) :
    (samplePh N d name frac order).Describes N false d name frac order bohr where
  supercell := by
    obtain ⟨f, hf⟩ : ∃ f, f = samplePh N d name frac order := ⟨_, rfl⟩
    refine .same [] (keyLine "supercell_matrix:" [.word] ['s']) (fun i => keyLine "" [.word, .word, .int (if i = 0 then N.x else 0), .int (if i = 1 then N.y else 0),
      .int (if i = 2 then N.z else 0)] ['-']) (⟨⟨fun x => decide (x = "length" ∨ x = "au"), [.word, .word]⟩, ['l']⟩ :: f.pc :: f.plat :: f.p 0 :: f.p 1 :: f.p 2 ::
        f.uc :: f.lat :: f.a 0 :: f.a 1 :: f.a 2 :: (f.atoms ++ .blank :: f.su :: f.slat :: f.v 0 :: f.v 1 :: f.v 2 :: f.coords))
      (by rw [hf]; simp [PhonopyFile.lines, PhonopyFile.upToCell, samplePh]) ?_ ?_ (by simp [keyLine]) (fun i => ⟨_, _, _, rfl⟩)
    · intro l hl
      simp only [hf, samplePh, List.nil_append, List.mem_append, List.mem_cons, List.not_mem_nil, or_false, List.mem_map, List.mem_flatMap] at hl
      rcases hl with rfl | rfl | rfl | rfl | rfl | rfl | rfl | rfl | rfl | rfl | rfl | ⟨b, -, rfl | rfl⟩ | rfl | rfl | rfl | rfl | rfl | rfl | ⟨p, -, rfl⟩ <;>
        simp [keyLine, PhLine.blank]
    · intro l hl
      simp only [hf, samplePh, List.append_nil, List.mem_append, List.mem_cons, List.not_mem_nil, or_false, List.mem_map, List.mem_flatMap, List.cons_append, List.nil_append] at hl
      rcases hl with rfl | rfl | rfl | rfl | rfl | rfl | rfl | rfl | rfl | rfl | rfl | rfl | ⟨b, -, rfl | rfl⟩ | rfl | rfl | rfl | rfl | rfl | rfl | ⟨p, -, rfl⟩ <;>
        simp [keyLine, PhLine.blank]
  quiet := by simp [samplePh, keyLine]
  prim := ⟨fun k i => d i k, by simp [samplePh, keyLine], by simp [samplePh, keyLine], fun k => ⟨_, _, _, rfl⟩⟩
  primOther := by simp [samplePh, keyLine]
  primOnce := by simp [samplePh, keyLine]
  cell := by
    refine ⟨fun k i => d i k, 1, ⟨by simp [samplePh, keyLine], by simp [samplePh, keyLine], fun k => ⟨_, _, _, rfl⟩⟩, Or.inl ⟨rfl,
      ⟨⟨fun x => decide (x = "length" ∨ x = "au"), [.word, .word]⟩, ['l']⟩, ?_, by simp, by simp⟩, by simp, fun k i => asFun N k * d i k,
      ⟨by simp [samplePh, keyLine], by simp [samplePh, keyLine], fun k => ⟨_, _, _, rfl⟩⟩, by simp⟩
    simp [PhonopyFile.upToCell, samplePh]
  cellOther := by simp [samplePh, keyLine]
  atoms := by
    simp only [samplePh]
    generalize List.finRange A = bs
    induction bs with
    | nil => exact .nil
    | cons b bs ih =>
      exact .atom _ _ _ (name b) ['1'] (frac b) _ (by simp [keyLine]) rfl (by simp [keyLine]) (by simp [keyLine]) (hn b) (by simp [keyLine])
        ⟨_, _, _, rfl⟩ (by simp [keyLine]) (by simp [keyLine]) (by simp [keyLine]) ih
  between := by simp [samplePh]
  supOther := by simp [samplePh, keyLine]
  coords := by
    simp only [samplePh]
    generalize ((List.finRange A).flatMap fun b => order.map fun c k => (frac b k + (asFun c k : ℝ)) / asFun N k) = ps
    induction ps with
    | nil => exact .nil
    | cons p ps ih => exact .coord _ _ p ps (by simp [keyLine]) (by simp [keyLine]) ⟨_, _, _, rfl⟩ ih

theorem cubic_apart6 : LatticeApart6 unitCubic := by
  intro n n' hne
  have key : (1 : ℤ) ≤ (n.x - n'.x) ^ 2 + (n.y - n'.y) ^ 2 + (n.z - n'.z) ^ 2 := by
    by_contra hlt
    have hx : n.x - n'.x = 0 := by nlinarith [sq_nonneg (n.x - n'.x), sq_nonneg (n.y - n'.y), sq_nonneg (n.z - n'.z)]
    have hy : n.y - n'.y = 0 := by nlinarith [sq_nonneg (n.x - n'.x), sq_nonneg (n.y - n'.y), sq_nonneg (n.z - n'.z)]
    have hz : n.z - n'.z = 0 := by nlinarith [sq_nonneg (n.x - n'.x), sq_nonneg (n.y - n'.y), sq_nonneg (n.z - n'.z)]
    apply hne
    cases n; cases n'
    simp only [V3.mk.injEq] at *
    omega
  have key' : (1 : ℝ) ≤ ((n.x - n'.x) ^ 2 + (n.y - n'.y) ^ 2 + (n.z - n'.z) ^ 2 : ℤ) := by exact_mod_cast key
  push_cast at key'
  have e : vdot (fun i => latVec unitCubic n i - latVec unitCubic n' i) (fun i => latVec unitCubic n i - latVec unitCubic n' i) =
      ((n.x : ℝ) - n'.x) ^ 2 + ((n.y : ℝ) - n'.y) ^ 2 + ((n.z : ℝ) - n'.z) ^ 2 := by
    simp [vdot, latVec, unitCubic]
    ring
  rw [e]
  linarith

/-- Three cells along the first direction. -/
def threeCells : List (V3 Int) := [⟨0, 0, 0⟩, ⟨1, 0, 0⟩, ⟨2, 0, 0⟩]

theorem three_order : IsOrder ⟨3, 1, 1⟩ threeCells where
  nodup := by decide
  home := rfl
  mem := by
    rintro ⟨x, y, z⟩
    simp only [threeCells, List.mem_cons, V3.mk.injEq, List.not_mem_nil, or_false]
    omega

/-- Force constants between neighbours that are not symmetric in the directions. -/
def chainFc : HarmonicFc 1 := fun _ n _ i j =>
  if n.x % 3 = 1 ∧ i = 0 ∧ j = 1 then 1 else if n.x % 3 = 2 ∧ i = 1 ∧ j = 0 then 1 else 0

theorem chain_symmetric : SymmetricHarmonic chainFc := by
  intro b b' n i j
  have e1 : (-n.x) % 3 = 1 ↔ n.x % 3 = 2 := by omega
  have e2 : (-n.x) % 3 = 2 ↔ n.x % 3 = 1 := by omega
  simp only [chainFc, e1, e2]
  have h : ¬ (n.x % 3 = 1 ∧ n.x % 3 = 2) := by omega
  by_cases h1 : n.x % 3 = 1 <;> by_cases h2 : n.x % 3 = 2
  · exact absurd ⟨h1, h2⟩ h
  · simp [h1, and_comm]
  · simp [h2, and_comm]
  · simp [h1, h2]

/-- The file of all pairs. -/
def chainFull (unit : String) : Fc2File :=
  ⟨[0], 3, 3, fun s s' => chainFc 0 ⟨(s : Int) - s', 0, 0⟩ 0, unit⟩

theorem chain_full (unit : String) : IsFullFc2 threeCells chainFc (chainFull unit) where
  map := rfl
  size0 := rfl
  size1 := rfl
  val := by
    intro b b' s s' c c' h h'
    have key : ∀ (s : Nat) (c : V3 Int), threeCells[s]? = some c → c.x = s := by
      intro s c h
      match s, h with
      | 0, h => simp only [threeCells, List.getElem?_cons_zero, Option.some.injEq] at h; rw [← h]; rfl
      | 1, h => simp only [threeCells, List.getElem?_cons_succ, List.getElem?_cons_zero, Option.some.injEq] at h; rw [← h]; rfl
      | 2, h => simp only [threeCells, List.getElem?_cons_succ, List.getElem?_cons_zero, Option.some.injEq] at h; rw [← h]; rfl
      | s + 3, h => simp [threeCells] at h
    funext i j
    simp [chainFull, chainFc, key s c h, key s' c' h']

/-- The compact file. -/
def chainCompact (unit : String) : Fc2File :=
  ⟨[0], 1, 3, fun _ s' => chainFc 0 ⟨-(s' : Int), 0, 0⟩ 0, unit⟩

theorem chain_compact (unit : String) : IsCompactFc2 threeCells chainFc (chainCompact unit) where
  map := rfl
  size0 := rfl
  size1 := rfl
  val := by
    intro b b' s' c' h'
    have key : ∀ (s : Nat) (c : V3 Int), threeCells[s]? = some c → c.x = s := by
      intro s c h
      match s, h with
      | 0, h => simp only [threeCells, List.getElem?_cons_zero, Option.some.injEq] at h; rw [← h]; rfl
      | 1, h => simp only [threeCells, List.getElem?_cons_succ, List.getElem?_cons_zero, Option.some.injEq] at h; rw [← h]; rfl
      | 2, h => simp only [threeCells, List.getElem?_cons_succ, List.getElem?_cons_zero, Option.some.injEq] at h; rw [← h]; rfl
      | s + 3, h => simp [threeCells] at h
    funext i j
    simp [chainCompact, chainFc, key s' c' h']

theorem silicon_name : ∀ b : Fin 1, (fun _ : Fin 1 => ['S', 'i']) b ≠ [] ∧ ∀ c ∈ (fun _ : Fin 1 => ['S', 'i']) b, c ≠ '#' ∧ c.isWhitespace = false := by
  decide

/-! ## What is read -/

/-- C154: the force constants of a full file in eV/angstrom^2 or in Ry/au^2 are read in Ry/Bohr^2, and the crystal is the one of the file of displacements.
`Phi b n b'` are those between the atom `b` of the cell `n` and the atom `b'` of the home cell.  Missing: the other units, see `C154_violated_units`; compact files,
see `C154_violated_compact`. -/
theorem C154_read_partial {A : Nat} (hA : 0 < A) (f : PhonopyFile) (N : V3 Int) (own : Bool) (d : Mat3) (name : Fin A → List Char)
    (frac : Fin A → Fin 3 → ℝ) (order : List (V3 Int)) (bohr ryd amu : ℝ) (mass : List Char → Outcome ℝ) (m : Fin A → ℝ) (evAng : String → Bool)
    (h : f.Describes N own d name frac order bohr) (ho : IsOrder N order) (hd : LatticeApart6 d) (hN : ((A * order.length : Nat) : Int) ≤ intMax)
    (hm : ∀ b, mass (name b) = .ok (m b)) (hev : FindsEvAng evAng) (Phi : HarmonicFc A) (fc : Fc2File) (hfc : IsFullFc2 order Phi fc)
    (u : FcUnit) (hu : fc.unit = u.name) (hu' : u = .evAng2 ∨ u = .ryAu2) :
    ∃ p, parsePhonopy bohr ryd amu mass evAng true f.lines none fc = .ok p ∧ ReadAs p N d name frac m amu ∧
      ∀ n ∈ order, ∀ (b b' : Fin A) (i j : Fin 3), p.force n b b' i j = some (Phi b n b' i j * u.value bohr ryd) := by
  have hl : 0 < order.length := (List.getElem?_eq_some_iff.mp ho.home).1
  have hconv : (if evAng fc.unit then bohr ^ 2 / ryd else 1) = u.value bohr ryd := by
    rw [hu]
    rcases hu' with rfl | rfl
    · rw [hev.1]; rfl
    · rw [hev.2.1]; rfl
  obtain ⟨p, e, h1, h2, -⟩ := parse_core hA f N own d name frac order bohr ryd amu mass m evAng h ho hd hN hm fc (by rw [hfc.map]; simp)
    (by rw [hfc.size0]; exact (Nat.mul_pos hA hl).ne')
    (fun n b b' i j => if hb : b < A then if hb' : b' < A then Phi ⟨b, hb⟩ n ⟨b', hb'⟩ i j * u.value bohr ryd else 0 else 0)
    (by
      intro s c hs b b' hb hb'
      rw [hconv, fc2Block_full N order ho Phi fc _ hfc hN s c hs ⟨b, hb⟩ ⟨b', hb'⟩]
      simp only [hb, hb', dif_pos])
    none ⟨none, []⟩ (fun _ => rfl) (by simp)
  refine ⟨p, e, h1, ?_⟩
  intro n hn b b' i j
  rw [h2 n hn b b' i j]
  simp

/-- Three cells of a chain. -/
example : ∃ p, parsePhonopy 0.5 13.6 911 (fun _ => .ok 28) (fun s => decide (s = "eV/angstrom^2" ∨ s = "eV/angstrom.au")) true
    (samplePh ⟨3, 1, 1⟩ unitCubic (fun _ : Fin 1 => ['S', 'i']) (fun _ _ => 0) threeCells).lines none (chainFull "eV/angstrom^2") = .ok p ∧
    p.force ⟨1, 0, 0⟩ 0 0 0 1 = some (1 * ((0.5 : ℝ) ^ 2 / 13.6)) := by
  obtain ⟨p, e, -, h⟩ := C154_read_partial (by decide) _ _ _ _ _ _ _ 0.5 13.6 911 (fun _ => .ok 28) (fun _ => 28)
    (fun s => decide (s = "eV/angstrom^2" ∨ s = "eV/angstrom.au")) (samplePh_describes ⟨3, 1, 1⟩ unitCubic (fun _ : Fin 1 => ['S', 'i']) (fun _ _ => 0) threeCells 0.5 silicon_name) three_order cubic_apart6
    (by decide) (fun _ => rfl) (by simp [FindsEvAng, FcUnit.name]) chainFc (chainFull "eV/angstrom^2") (chain_full _) .evAng2 rfl (Or.inl rfl)
  refine ⟨p, e, ?_⟩
  have := h ⟨1, 0, 0⟩ (by decide) 0 0 0 1
  rw [show chainFc 0 ⟨1, 0, 0⟩ 0 0 1 = 1 from by simp [chainFc]] at this
  exact this

/-! ## Units -/

/-- C154 is false for the other units: the force constants are wrong by the factor `2` (hartree/au^2: Elk, DFTB+, TURBOMOLE), by `1/1000` (mRy/au^2: WIEN2k), or by
the Bohr radius (eV/angstrom.au: ABINIT, SIESTA). -/
theorem C154_violated_units {A : Nat} (hA : 0 < A) (f : PhonopyFile) (N : V3 Int) (own : Bool) (d : Mat3) (name : Fin A → List Char)
    (frac : Fin A → Fin 3 → ℝ) (order : List (V3 Int)) (bohr ryd amu : ℝ) (mass : List Char → Outcome ℝ) (m : Fin A → ℝ) (evAng : String → Bool)
    (h : f.Describes N own d name frac order bohr) (ho : IsOrder N order) (hd : LatticeApart6 d) (hN : ((A * order.length : Nat) : Int) ≤ intMax)
    (hm : ∀ b, mass (name b) = .ok (m b)) (hev : FindsEvAng evAng) (Phi : HarmonicFc A) (fc : Fc2File) (hfc : IsFullFc2 order Phi fc)
    (u : FcUnit) (hu : fc.unit = u.name) (hu' : u = .hartreeAu2 ∨ u = .mRyAu2 ∨ u = .evAngAu) (hb : 0 < bohr ∧ bohr < 1) (hr : 0 < ryd) :
    ∃ p, parsePhonopy bohr ryd amu mass evAng true f.lines none fc = .ok p ∧
      ∀ n ∈ order, ∀ (b b' : Fin A) (i j : Fin 3), Phi b n b' i j ≠ 0 → p.force n b b' i j ≠ some (Phi b n b' i j * u.value bohr ryd) := by
  have hl : 0 < order.length := (List.getElem?_eq_some_iff.mp ho.home).1
  obtain ⟨conv, hc⟩ : ∃ conv : ℝ, conv = if evAng fc.unit then bohr ^ 2 / ryd else 1 := ⟨_, rfl⟩
  have hconv : conv ≠ u.value bohr ryd := by
    rw [hc, hu]
    rcases hu' with rfl | rfl | rfl
    · rw [hev.2.2.1]; norm_num [FcUnit.value]
    · rw [hev.2.2.2.1]; norm_num [FcUnit.value]
    · rw [hev.2.2.2.2]
      simp only [if_true, FcUnit.value]
      intro he
      rw [div_left_inj' hr.ne'] at he
      nlinarith [hb.1, hb.2]
  obtain ⟨p, e, h1, h2, -⟩ := parse_core hA f N own d name frac order bohr ryd amu mass m evAng h ho hd hN hm fc (by rw [hfc.map]; simp)
    (by rw [hfc.size0]; exact (Nat.mul_pos hA hl).ne')
    (fun n b b' i j => if hb : b < A then if hb' : b' < A then Phi ⟨b, hb⟩ n ⟨b', hb'⟩ i j * conv else 0 else 0)
    (by
      intro s c hs b b' hb hb'
      rw [← hc, fc2Block_full N order ho Phi fc _ hfc hN s c hs ⟨b, hb⟩ ⟨b', hb'⟩]
      simp only [hb, hb', dif_pos])
    none ⟨none, []⟩ (fun _ => rfl) (by simp)
  refine ⟨p, e, ?_⟩
  intro n hn b b' i j hne
  rw [h2 n hn b b' i j]
  simp only [b.2, b'.2, dif_pos, Fin.eta, ne_eq, Option.some.injEq]
  intro he
  exact hconv (mul_left_cancel₀ hne he)

/-- The chain, computed with WIEN2k. -/
example : ∃ p, parsePhonopy 0.5 13.6 911 (fun _ => .ok 28) (fun s => decide (s = "eV/angstrom^2" ∨ s = "eV/angstrom.au")) true
    (samplePh ⟨3, 1, 1⟩ unitCubic (fun _ : Fin 1 => ['S', 'i']) (fun _ _ => 0) threeCells).lines none (chainFull "mRy/au^2") = .ok p ∧
    p.force ⟨1, 0, 0⟩ 0 0 0 1 ≠ some (1 * (1 / 1000)) := by
  obtain ⟨p, e, h⟩ := C154_violated_units (by decide) _ _ _ _ _ _ _ 0.5 13.6 911 (fun _ => .ok 28) (fun _ => 28)
    (fun s => decide (s = "eV/angstrom^2" ∨ s = "eV/angstrom.au")) (samplePh_describes ⟨3, 1, 1⟩ unitCubic (fun _ : Fin 1 => ['S', 'i']) (fun _ _ => 0) threeCells 0.5 silicon_name) three_order cubic_apart6
    (by decide) (fun _ => rfl) (by simp [FindsEvAng, FcUnit.name]) chainFc (chainFull "mRy/au^2") (chain_full _) .mRyAu2 rfl (Or.inr (Or.inl rfl)) (by norm_num)
    (by norm_num)
  refine ⟨p, e, ?_⟩
  have e1 : chainFc 0 ⟨1, 0, 0⟩ 0 0 1 = 1 := by simp [chainFc]
  have := h ⟨1, 0, 0⟩ (by decide) 0 0 0 1 (by rw [e1]; norm_num)
  rw [e1] at this
  exact this

/-! ## Compact files -/

/-- C154 is false for compact files: the two directions are exchanged. -/
theorem C154_violated_compact {A : Nat} (hA : 0 < A) (f : PhonopyFile) (N : V3 Int) (own : Bool) (d : Mat3) (name : Fin A → List Char)
    (frac : Fin A → Fin 3 → ℝ) (order : List (V3 Int)) (bohr ryd amu : ℝ) (mass : List Char → Outcome ℝ) (m : Fin A → ℝ) (evAng : String → Bool)
    (h : f.Describes N own d name frac order bohr) (ho : IsOrder N order) (hd : LatticeApart6 d) (hN : ((A * order.length : Nat) : Int) ≤ intMax)
    (hm : ∀ b, mass (name b) = .ok (m b)) (hev : FindsEvAng evAng) (Phi : HarmonicFc A) (hsym : SymmetricHarmonic Phi) (fc : Fc2File)
    (hfc : IsCompactFc2 order Phi fc) (hmore : order.length ≠ 1) (hu : fc.unit = FcUnit.evAng2.name) (hr : bohr ≠ 0 ∧ ryd ≠ 0) :
    ∃ p, parsePhonopy bohr ryd amu mass evAng true f.lines none fc = .ok p ∧
      (∀ n ∈ order, ∀ (b b' : Fin A) (i j : Fin 3), p.force n b b' i j = some (Phi b n b' j i * (bohr ^ 2 / ryd))) ∧
      ∀ n ∈ order, ∀ (b b' : Fin A) (i j : Fin 3), Phi b n b' i j ≠ Phi b n b' j i →
        p.force n b b' i j ≠ some (Phi b n b' i j * (bohr ^ 2 / ryd)) := by
  obtain ⟨p, e, h1, h2, -⟩ := parse_core hA f N own d name frac order bohr ryd amu mass m evAng h ho hd hN hm fc (by rw [hfc.map]; simp)
    (by rw [hfc.size0]; exact hA.ne')
    (fun n b b' i j => if hb : b < A then if hb' : b' < A then Phi ⟨b, hb⟩ n ⟨b', hb'⟩ j i * (bohr ^ 2 / ryd) else 0 else 0)
    (by
      intro s c hs b b' hb hb'
      rw [hu, hev.1, if_pos rfl, fc2Block_compact N order ho Phi hsym fc _ hmore hfc hN s c hs ⟨b, hb⟩ ⟨b', hb'⟩]
      simp only [hb, hb', dif_pos])
    none ⟨none, []⟩ (fun _ => rfl) (by simp)
  have key : ∀ n ∈ order, ∀ (b b' : Fin A) (i j : Fin 3), p.force n b b' i j = some (Phi b n b' j i * (bohr ^ 2 / ryd)) := by
    intro n hn b b' i j
    rw [h2 n hn b b' i j]
    simp
  refine ⟨p, e, key, ?_⟩
  intro n hn b b' i j hne
  rw [key n hn b b' i j]
  simp only [ne_eq, Option.some.injEq]
  intro he
  exact hne (mul_right_cancel₀ (div_ne_zero (pow_ne_zero 2 hr.1) hr.2) he).symm

/-- The chain. -/
example : ∃ p, parsePhonopy 0.5 13.6 911 (fun _ => .ok 28) (fun s => decide (s = "eV/angstrom^2" ∨ s = "eV/angstrom.au")) true
    (samplePh ⟨3, 1, 1⟩ unitCubic (fun _ : Fin 1 => ['S', 'i']) (fun _ _ => 0) threeCells).lines none (chainCompact "eV/angstrom^2") = .ok p ∧
    p.force ⟨1, 0, 0⟩ 0 0 0 1 ≠ some (chainFc 0 ⟨1, 0, 0⟩ 0 0 1 * ((0.5 : ℝ) ^ 2 / 13.6)) := by
  obtain ⟨p, e, -, h⟩ := C154_violated_compact (by decide) _ _ _ _ _ _ _ 0.5 13.6 911 (fun _ => .ok 28) (fun _ => 28)
    (fun s => decide (s = "eV/angstrom^2" ∨ s = "eV/angstrom.au")) (samplePh_describes ⟨3, 1, 1⟩ unitCubic (fun _ : Fin 1 => ['S', 'i']) (fun _ _ => 0) threeCells 0.5 silicon_name) three_order cubic_apart6
    (by decide) (fun _ => rfl) (by simp [FindsEvAng, FcUnit.name]) chainFc chain_symmetric (chainCompact "eV/angstrom^2") (chain_compact _) (by decide) rfl
    (by norm_num)
  exact ⟨p, e, h ⟨1, 0, 0⟩ (by decide) 0 0 0 1 (by simp [chainFc])⟩

/-! ## Born charges -/

theorem bornNine_val (l : BornLine) (e : Fin 3 → Fin 3 → ℝ) (h : HasTensor l e) :
    bornNine l = .ok [e 0 0, e 0 1, e 0 2, e 1 0, e 1 1, e 1 2, e 2 0, e 2 1, e 2 2] := by
  have ht : l.toYamlLine.tok = nineWords e := h.2.2
  simp only [bornNine, show List.range 9 = [0, 1, 2, 3, 4, 5, 6, 7, 8] from rfl, mapOutcome, YamlLine.num, ht, nineWords, Outcome.bind_eq,
    List.getElem?_cons_succ, List.getElem?_cons_zero, Outcome.bind_ok]

/-- The numbers of a tensor. -/
def nineNumbers (e : Fin 3 → Fin 3 → ℝ) : List ℝ := [e 0 0, e 0 1, e 0 2, e 1 0, e 1 1, e 1 2, e 2 0, e 2 1, e 2 2]

theorem nine_get (e : Fin 3 → Fin 3 → ℝ) (i j : Fin 3) : (nineNumbers e).getD (3 * i + j) 0 = e i j := by
  fin_cases i <;> fin_cases j <;> rfl

theorem readBorn_charges (A : Nat) (zl : List BornLine) (Z : List (Fin 3 → Fin 3 → ℝ)) (h : List.Forall₂ HasTensor zl Z) (eps : List ℝ)
    (done : List (List ℝ)) (hA : done.length + Z.length ≤ A) :
    readBorn A zl ⟨some eps, done⟩ = .ok ⟨some eps, done ++ Z.map nineNumbers⟩ := by
  induction h generalizing done with
  | nil => simp [readBorn]
  | cons hl t ih =>
    rename_i l z zl Z
    simp only [readBorn]
    rw [if_neg (by rw [hl.1, hl.2.1]; simp), bornNine_val l z hl]
    simp only [List.length_cons] at hA
    show (if A ≤ done.length then _ else _) = _
    rw [if_neg (by omega)]
    rw [show [z 0 0, z 0 1, z 0 2, z 1 0, z 1 1, z 1 2, z 2 0, z 2 1, z 2 2] = nineNumbers z from rfl, ih (done ++ [nineNumbers z]) (by simp; omega)]
    simp

theorem readBorn_file (A : Nat) (ls : List BornLine) (eps : Fin 3 → Fin 3 → ℝ) (Z : List (Fin 3 → Fin 3 → ℝ)) (h : IsBornFile ls eps Z)
    (hA : Z.length ≤ A) : readBorn A (ls.drop 1) ⟨none, []⟩ = .ok ⟨some (nineNumbers eps), Z.map nineNumbers⟩ := by
  obtain ⟨first, el, zl, rfl, h1, h2⟩ := h.parts
  simp only [List.drop_succ_cons, List.drop_zero, readBorn]
  have ht : el.toYamlLine.tok = nineWords eps := h1.2.2
  rw [if_neg (by rw [h1.1, h1.2.1]; simp)]
  have e : streamNumbers 9 el.tok = nineNumbers eps := by
    rw [ht]
    simp [streamNumbers, nineWords, nineNumbers]
  rw [e, readBorn_charges A zl Z h2 _ [] (by simpa using hA)]
  rfl

/-- C154: the dielectric tensor and the charges of the file `BORN` are read, if it has a line for each atom and each atom is of another species.  Missing: crystals
with several atoms of a species, see `C154_violated_born_ub` and `C154_violated_born_missing`. -/
theorem C154_born_partial {A : Nat} (hA : 0 < A) (f : PhonopyFile) (N : V3 Int) (own : Bool) (d : Mat3) (name : Fin A → List Char)
    (hname : Function.Injective name)
    (frac : Fin A → Fin 3 → ℝ) (order : List (V3 Int)) (bohr ryd amu : ℝ) (mass : List Char → Outcome ℝ) (m : Fin A → ℝ) (evAng : String → Bool)
    (h : f.Describes N own d name frac order bohr) (ho : IsOrder N order) (hd : LatticeApart6 d) (hN : ((A * order.length : Nat) : Int) ≤ intMax)
    (hm : ∀ b, mass (name b) = .ok (m b)) (Phi : HarmonicFc A) (fc : Fc2File) (hfc : IsFullFc2 order Phi fc)
    (ls : List BornLine) (eps : Fin 3 → Fin 3 → ℝ) (Z : Fin A → Fin 3 → Fin 3 → ℝ) (hb : IsBornFile ls eps (List.ofFn Z)) :
    ∃ p, parsePhonopy bohr ryd amu mass evAng true f.lines (some ls) fc = .ok p ∧ ReadAs p N d name frac m amu ∧ p.dielectric = eps ∧
      ∀ b : Fin A, p.born b = Z b := by
  have hl : 0 < order.length := (List.getElem?_eq_some_iff.mp ho.home).1
  have hcard : (Finset.univ.image name).card = A := by
    rw [Finset.card_image_of_injective _ hname]; simp
  obtain ⟨p, e, h1, -, h2, h3⟩ := parse_core hA f N own d name frac order bohr ryd amu mass m evAng h ho hd hN hm fc (by rw [hfc.map]; simp)
    (by rw [hfc.size0]; exact (Nat.mul_pos hA hl).ne')
    (fun n b b' i j => if hb : b < A then if hb' : b' < A then Phi ⟨b, hb⟩ n ⟨b', hb'⟩ i j * (if evAng fc.unit then bohr ^ 2 / ryd else 1) else 0 else 0)
    (by
      intro s c hs b b' hb hb'
      rw [fc2Block_full N order ho Phi fc _ hfc hN s c hs ⟨b, hb⟩ ⟨b', hb'⟩]
      simp only [hb, hb', dif_pos])
    (some ls) ⟨some (nineNumbers eps), (List.ofFn Z).map nineNumbers⟩ (by simp) (by
      intro ls' hls
      rw [Option.some.injEq] at hls
      subst hls
      unfold bornFile
      rw [readBorn_file A ls eps _ hb (by simp), hcard]
      show (if A < _ then _ else _) = _
      rw [if_neg (by simp)])
  refine ⟨p, e, h1, ?_, ?_⟩
  · rw [h2]
    funext i j
    exact nine_get eps i j
  · intro b
    rw [h3]
    funext i j
    simp only
    rw [show ((List.ofFn Z).map nineNumbers).getD b [] = nineNumbers (Z b) by
      rw [List.getD_eq_getElem?_getD, List.getElem?_map, List.getElem?_eq_getElem (by simp)]
      simp]
    exact nine_get _ i j

/-- A line of numbers. -/
def tensorLine (e : Fin 3 → Fin 3 → ℝ) : BornLine := ⟨⟨fun _ => false, nineWords e⟩, false⟩

theorem tensorLine_has (e : Fin 3 → Fin 3 → ℝ) : HasTensor (tensorLine e) e := ⟨rfl, rfl, rfl⟩

/-- The chain with charges. -/
example : ∃ p, parsePhonopy 0.5 13.6 911 (fun _ => .ok 28) (fun _ => true) true
    (samplePh ⟨3, 1, 1⟩ unitCubic (fun _ : Fin 1 => ['S', 'i']) (fun _ _ => 0) threeCells).lines
    (some [tensorLine 0, tensorLine fun _ _ => 12, tensorLine fun _ _ => 2]) (chainFull "eV/angstrom^2") = .ok p ∧
    p.born 0 = fun _ _ => 2 := by
  obtain ⟨p, e, -, -, h⟩ := C154_born_partial (by decide) _ _ _ _ (fun _ : Fin 1 => ['S', 'i']) (fun _ _ _ => Subsingleton.elim _ _) _ _ 0.5 13.6 911 (fun _ => .ok 28) (fun _ => 28)
    (fun _ => true) (samplePh_describes ⟨3, 1, 1⟩ unitCubic (fun _ : Fin 1 => ['S', 'i']) (fun _ _ => 0) threeCells 0.5 silicon_name) three_order cubic_apart6
    (by decide) (fun _ => rfl) chainFc (chainFull "eV/angstrom^2") (chain_full _)
    [tensorLine 0, tensorLine fun _ _ => 12, tensorLine fun _ _ => 2] (fun _ _ => 12) (fun _ _ _ => 2)
    ⟨_, _, _, rfl, tensorLine_has _, .cons (tensorLine_has _) .nil⟩
  exact ⟨p, e, h 0⟩

/-- C154 is false for crystals with more lines of charges than species: the name of a species that does not exist is printed. -/
theorem C154_violated_born_ub {A : Nat} (hA : 0 < A) (f : PhonopyFile) (N : V3 Int) (own : Bool) (d : Mat3) (name : Fin A → List Char)
    (frac : Fin A → Fin 3 → ℝ) (order : List (V3 Int)) (bohr ryd amu : ℝ) (mass : List Char → Outcome ℝ) (m : Fin A → ℝ) (evAng : String → Bool)
    (h : f.Describes N own d name frac order bohr) (ho : IsOrder N order) (hN : ((A * order.length : Nat) : Int) ≤ intMax)
    (hm : ∀ b, mass (name b) = .ok (m b)) (fc : Fc2File)
    (ls : List BornLine) (eps : Fin 3 → Fin 3 → ℝ) (Z : List (Fin 3 → Fin 3 → ℝ)) (hb : IsBornFile ls eps Z) (hZ : Z.length ≤ A)
    (hmore : (Finset.univ.image name).card < Z.length) :
    parsePhonopy bohr ryd amu mass evAng true f.lines (some ls) fc = .ub := by
  obtain ⟨names, species, masses, -, e⟩ := parse_prefix hA f N own d name frac order bohr ryd amu mass m evAng h ho hN hm fc (some ls)
  rw [e]
  have : bornOf A (Finset.univ.image name).card (some ls) = .ub := by
    show bornFile _ _ _ = _
    unfold bornFile
    rw [readBorn_file A ls eps Z hb hZ]
    show (if _ < _ then _ else _) = _
    rw [if_pos (by simpa using hmore)]
  rw [this]
  rfl

/-- Two atoms of silicon, with a line for each. -/
example : parsePhonopy 0.5 13.6 911 (fun _ => .ok 28) (fun _ => true) true
    (samplePh ⟨3, 1, 1⟩ unitCubic (fun _ : Fin 2 => ['S', 'i']) (fun b _ => b / 4) threeCells).lines
    (some [tensorLine 0, tensorLine fun _ _ => 12, tensorLine fun _ _ => 2, tensorLine fun _ _ => -2]) (chainFull "eV/angstrom^2") = .ub :=
  C154_violated_born_ub (by decide) _ _ _ _ (fun _ : Fin 2 => ['S', 'i']) _ _ 0.5 13.6 911 (fun _ => .ok 28) (fun _ => 28)
    (fun _ => true) (samplePh_describes ⟨3, 1, 1⟩ unitCubic (fun _ : Fin 2 => ['S', 'i']) (fun b _ => b / 4) threeCells 0.5 (by decide)) three_order
    (by decide) (fun _ => rfl) (chainFull "eV/angstrom^2")
    [tensorLine 0, tensorLine fun _ _ => 12, tensorLine fun _ _ => 2, tensorLine fun _ _ => -2] (fun _ _ => 12) [fun _ _ => 2, fun _ _ => -2]
    ⟨_, _, _, rfl, tensorLine_has _, .cons (tensorLine_has _) (.cons (tensorLine_has _) .nil)⟩ (by decide) (by decide)

/-- C154 is false for crystals with equivalent atoms: phonopy writes the charges of the atoms `ind` that are not equivalent, and they are given to the first atoms;
the other atoms have no charge. -/
theorem C154_violated_born_missing {A : Nat} (hA : 0 < A) (f : PhonopyFile) (N : V3 Int) (own : Bool) (d : Mat3) (name : Fin A → List Char)
    (frac : Fin A → Fin 3 → ℝ) (order : List (V3 Int)) (bohr ryd amu : ℝ) (mass : List Char → Outcome ℝ) (m : Fin A → ℝ) (evAng : String → Bool)
    (h : f.Describes N own d name frac order bohr) (ho : IsOrder N order) (hd : LatticeApart6 d) (hN : ((A * order.length : Nat) : Int) ≤ intMax)
    (hm : ∀ b, mass (name b) = .ok (m b)) (Phi : HarmonicFc A) (fc : Fc2File) (hfc : IsFullFc2 order Phi fc)
    (ls : List BornLine) (eps : Fin 3 → Fin 3 → ℝ) (Z : Fin A → Fin 3 → Fin 3 → ℝ) (ind : List (Fin A)) (hb : IsBornFile ls eps (ind.map Z))
    (hind : ind.length ≤ (Finset.univ.image name).card) :
    ∃ p, parsePhonopy bohr ryd amu mass evAng true f.lines (some ls) fc = .ok p ∧
      (∀ b : Fin A, ind.length ≤ b.val → p.born b = 0) ∧ ∀ (b : Fin A) (a : Fin A), ind[b.val]? = some a → p.born b = Z a := by
  have hl : 0 < order.length := (List.getElem?_eq_some_iff.mp ho.home).1
  have hcard : (Finset.univ.image name).card ≤ A := by
    refine Finset.card_image_le.trans ?_
    simp
  obtain ⟨p, e, h1, -, h2, h3⟩ := parse_core hA f N own d name frac order bohr ryd amu mass m evAng h ho hd hN hm fc (by rw [hfc.map]; simp)
    (by rw [hfc.size0]; exact (Nat.mul_pos hA hl).ne')
    (fun n b b' i j => if hb : b < A then if hb' : b' < A then Phi ⟨b, hb⟩ n ⟨b', hb'⟩ i j * (if evAng fc.unit then bohr ^ 2 / ryd else 1) else 0 else 0)
    (by
      intro s c hs b b' hb hb'
      rw [fc2Block_full N order ho Phi fc _ hfc hN s c hs ⟨b, hb⟩ ⟨b', hb'⟩]
      simp only [hb, hb', dif_pos])
    (some ls) ⟨some (nineNumbers eps), (ind.map Z).map nineNumbers⟩ (by simp) (by
      intro ls' hls
      rw [Option.some.injEq] at hls
      subst hls
      unfold bornFile
      rw [readBorn_file A ls eps _ hb (by simp; omega)]
      show (if _ < _ then _ else _) = _
      rw [if_neg (by simpa using hind)])
  refine ⟨p, e, ?_, ?_⟩
  · intro b hb
    rw [h3]
    funext i j
    simp only
    rw [show ((ind.map Z).map nineNumbers).getD b [] = [] by
      rw [List.getD_eq_getElem?_getD, List.getElem?_eq_none (by simpa using hb)]
      rfl]
    rfl
  · intro b a hba
    rw [h3]
    funext i j
    simp only
    rw [show ((ind.map Z).map nineNumbers).getD b [] = nineNumbers (Z a) by
      rw [List.getD_eq_getElem?_getD, List.getElem?_map, List.getElem?_map, hba]
      rfl]
    exact nine_get _ i j

/-- Two atoms of a species and one of another: the charge of the second atom is that of the third, and the third has none. -/
theorem molecule_names : (Finset.univ.image (fun b : Fin 3 => if b = 2 then ['C'] else ['O'])).card = 2 := by decide

/-- Force constants of three atoms. -/
def moleculeFc : Fc2File := ⟨[0, 3, 6], 9, 9, fun _ _ _ _ => 1, "eV/angstrom^2"⟩

example : ∃ p, parsePhonopy 0.5 13.6 911 (fun _ => .ok 28) (fun _ => true) true
    (samplePh ⟨3, 1, 1⟩ unitCubic (fun b : Fin 3 => if b = 2 then ['C'] else ['O']) (fun b _ => b / 4) threeCells).lines
    (some [tensorLine 0, tensorLine fun _ _ => 12, tensorLine fun _ _ => -1, tensorLine fun _ _ => 2]) moleculeFc = .ok p ∧
    p.born 1 = (fun _ _ => 2) ∧ p.born 2 = 0 := by
  obtain ⟨p, e, h1, h2⟩ := C154_violated_born_missing (by decide) _ _ _ _ (fun b : Fin 3 => if b = 2 then ['C'] else ['O']) _ _ 0.5 13.6 911 (fun _ => .ok 28) (fun _ => 28)
    (fun _ => true) (samplePh_describes ⟨3, 1, 1⟩ unitCubic (fun b : Fin 3 => if b = 2 then ['C'] else ['O']) (fun b _ => b / 4) threeCells 0.5 (by decide)) three_order cubic_apart6
    (by decide) (fun _ => rfl) (fun _ _ _ _ _ => 1) moleculeFc ⟨rfl, rfl, rfl, fun _ _ _ _ _ _ _ _ => rfl⟩
    [tensorLine 0, tensorLine fun _ _ => 12, tensorLine fun _ _ => -1, tensorLine fun _ _ => 2] (fun _ _ => 12) (fun b _ _ => if b = 2 then 2 else -1) [0, 2]
    ⟨_, _, _, rfl, tensorLine_has _, .cons (tensorLine_has _) (.cons (tensorLine_has _) .nil)⟩ (by rw [molecule_names]; decide)
  exact ⟨p, e, h2 1 2 rfl, h1 2 (by decide)⟩

/-! ## Refused files -/

/-- C154: a file of force constants of another number of atoms is refused. -/
theorem C154_refused_atoms {A : Nat} (hA : 0 < A) (f : PhonopyFile) (N : V3 Int) (own : Bool) (d : Mat3) (name : Fin A → List Char)
    (frac : Fin A → Fin 3 → ℝ) (order : List (V3 Int)) (bohr ryd amu : ℝ) (mass : List Char → Outcome ℝ) (m : Fin A → ℝ) (evAng : String → Bool)
    (h : f.Describes N own d name frac order bohr) (ho : IsOrder N order) (hN : ((A * order.length : Nat) : Int) ≤ intMax)
    (hm : ∀ b, mass (name b) = .ok (m b)) (fc : Fc2File) (hfc : fc.cellMap.length ≠ A) :
    parsePhonopy bohr ryd amu mass evAng true f.lines none fc = .error := by
  obtain ⟨names, species, masses, -, e⟩ := parse_prefix hA f N own d name frac order bohr ryd amu mass m evAng h ho hN hm fc none
  rw [e]
  show (if _ then _ else _) = _
  rw [if_pos hfc]

example : parsePhonopy 0.5 13.6 911 (fun _ => .ok 28) (fun _ => true) true
    (samplePh ⟨3, 1, 1⟩ unitCubic (fun _ : Fin 2 => ['S', 'i']) (fun b _ => b / 4) threeCells).lines none (chainFull "eV/angstrom^2") = .error :=
  C154_refused_atoms (by decide) _ _ _ _ (fun _ : Fin 2 => ['S', 'i']) _ _ 0.5 13.6 911 (fun _ => .ok 28) (fun _ => 28)
    (fun _ => true) (samplePh_describes ⟨3, 1, 1⟩ unitCubic (fun _ : Fin 2 => ['S', 'i']) (fun b _ => b / 4) threeCells 0.5 (by decide)) three_order
    (by decide) (fun _ => rfl) (chainFull "eV/angstrom^2") (by decide)

/-- C154: supercells that are not made of whole copies along the three lattice vectors are refused: the matrix `M` of the file has an element out of the
diagonal. -/
theorem C154_refused_matrix (bohr ryd amu : ℝ) (mass : List Char → Outcome ℝ) (evAng : String → Bool) (newline : Bool) (born : Option (List BornLine)) (fc : Fc2File)
    (pre : List PhLine) (sm : PhLine) (g : Fin 3 → PhLine) (post : List PhLine) (M : Fin 3 → Fin 3 → Int)
    (hpre : Without "supercell_matrix:" pre) (hpre' : Without "phonon_supercell_matrix:" pre) (hsm : sm.has "supercell_matrix:" = true)
    (hg : ∀ i, ∃ w w' more, (g i).tok = w :: w' :: .int (M i 0) :: .int (M i 1) :: .int (M i 2) :: more) (hM : ∃ i j, i ≠ j ∧ M i j ≠ 0) :
    parsePhonopy bohr ryd amu mass evAng newline (pre ++ sm :: g 0 :: g 1 :: g 2 :: post) born fc = .error := by
  have hr : ∀ last, phMatrix last (g 0 :: g 1 :: g 2 :: post) = .error := by
    intro last
    simp only [phMatrix, List.getD_cons_zero, List.getD_cons_succ]
    obtain ⟨w0, w0', m0, e0⟩ := hg 0
    obtain ⟨w1, w1', m1, e1⟩ := hg 1
    obtain ⟨w2, w2', m2, e2⟩ := hg 2
    have r0 := gridRow_val e0 0
    have r1 := gridRow_val e1 1
    have r2 := gridRow_val e2 2
    simp only [Fin.val_zero, Fin.val_one, Fin.val_two] at r0 r1 r2
    rcases r0 with ⟨r0, z0⟩ | ⟨r0, -⟩
    · rw [r0]
      rcases r1 with ⟨r1, z1⟩ | ⟨r1, -⟩
      · rw [r1]
        rcases r2 with ⟨r2, z2⟩ | ⟨r2, -⟩
        · exfalso
          obtain ⟨i, j, hij, hne⟩ := hM
          fin_cases i
          · exact hne (z0 j hij.symm)
          · exact hne (z1 j hij.symm)
          · exact hne (z2 j hij.symm)
        · rw [r2]; rfl
      · rw [r1]; rfl
    · rw [r0]; rfl
  have hd : ∀ last m, phDims last (pre ++ sm :: g 0 :: g 1 :: g 2 :: post) 0 m = .error := by
    intro last m
    rw [phDims_skip _ _ _ _ hpre hpre']
    unfold phDims
    rw [hr]
    by_cases hp : sm.has "phonon_supercell_matrix:" = true
    · rw [if_pos hp]; rfl
    · rw [if_neg hp, if_pos hsm]; rfl
  unfold parsePhonopy
  simp only [hd]
  rfl

/-- A face-centred supercell of a cubic cell. -/
example : parsePhonopy 0.5 13.6 911 (fun _ => .ok 28) (fun _ => true) true
    ([] ++ keyLine "supercell_matrix:" [.word] ['s'] :: keyLine "" [.word, .word, .int 0, .int 1, .int 1] ['-'] ::
      keyLine "" [.word, .word, .int 1, .int 0, .int 1] ['-'] :: keyLine "" [.word, .word, .int 1, .int 1, .int 0] ['-'] :: []) none (chainFull "") = .error :=
  C154_refused_matrix 0.5 13.6 911 _ _ true none _ [] (keyLine "supercell_matrix:" [.word] ['s'])
    ![keyLine "" [.word, .word, .int 0, .int 1, .int 1] ['-'], keyLine "" [.word, .word, .int 1, .int 0, .int 1] ['-'],
      keyLine "" [.word, .word, .int 1, .int 1, .int 0] ['-']] [] ![![0, 1, 1], ![1, 0, 1], ![1, 1, 0]] (by simp [Without]) (by simp [Without]) (by simp [keyLine])
    (by intro i; fin_cases i <;> exact ⟨_, _, _, rfl⟩) ⟨0, 1, by decide, by decide⟩

/-- C154: a file without the number of cells is refused. -/
theorem C154_refused_missing (bohr ryd amu : ℝ) (mass : List Char → Outcome ℝ) (evAng : String → Bool) (newline : Bool) (born : Option (List BornLine)) (fc : Fc2File)
    (lines : List PhLine) (h : Without "supercell_matrix:" lines) (h' : Without "phonon_supercell_matrix:" lines) :
    parsePhonopy bohr ryd amu mass evAng newline lines born fc = .error := by
  have hd : ∀ last m, phDims last lines 0 m = .ok (m, false) := by
    intro last m
    have := phDims_skip last lines [] m h h'
    rw [List.append_nil] at this
    rw [this]
    rfl
  unfold parsePhonopy
  simp only [hd, Outcome.bind_eq, Outcome.bind_ok, le_refl, true_or, if_true]

example : parsePhonopy 0.5 13.6 911 (fun _ => .ok 28) (fun _ => true) true [keyLine "unit_cell:" [.word] ['u']] none (chainFull "") = .error :=
  C154_refused_missing _ _ _ _ _ _ _ _ _ (by simp [Without, keyLine]) (by simp [Without, keyLine])

end Verif.Props
