import Verif.Proofs.ActiveRun
import Verif.Props.Sweep

/-!
# C180: the states kept for a transport calculation

Spec: `Verif/Spec/ActiveRun.lean`.
-/
namespace Verif.Props
open Verif.Model Verif.Spec Verif.Proofs

/-- Energies of a Hamiltonian that are the same at points of the mesh related by a symmetry. -/
def SymmetricEnergies {γ : Type} (rots : List M3) (coords : Nat → V3 Rat) (n bands : Nat) (H : HamView (V3 Rat) ℝ γ) :
    Prop :=
  ∀ i j b, i < n → j < n → b < bands → SymRelated rots coords i j → H.energy (coords i) b = H.energy (coords j) b

theorem equiv_related {nProc rank n : Nat} {coords : Nat → V3 Rat} {lookup : V3 Rat → Outcome Int}
    {rots : List M3} (h : IrrSetup nProc rank n coords lookup rots) (irr : IrrPoints)
    (hirr : setIrreduciblePoints nProc rank n coords lookup rots none [] = .ok irr) (j : Nat) (hj : j < n) :
    irr.equiv j < n ∧ SymRelated rots coords (irr.equiv j) j := by
  obtain ⟨s, h1, _, _, _, _, h6⟩ := C18_stars h none
  rw [hirr] at h1
  injection h1 with h1
  subst h1
  obtain ⟨_, hle, kr, R, _, hR, he⟩ := h6 j hj
  exact ⟨by omega, R, List.mem_of_getElem? hR, he⟩

theorem range_energy (bands b : Nat) (e : Nat → ℝ) (hb : b < bands) :
    ((List.range bands).map e)[b]? = some (e b) := by
  simp [List.getElem?_map, List.getElem?_range hb]

theorem postWindow_ok (s : Statistics) (w : WindowInput) (sweep : Sweep) (W : ReadyWindow)
    (h : postWindow s w sweep = .ok W) : W.statistics = s ∧
      W.temperatureMax = listMax (sweep.table.map (·.temperature)) ∧
      W.muMin = listMin (sweep.table.map (·.chemicalPotential)) ∧
      W.muMax = listMax (sweep.table.map (·.chemicalPotential)) ∧
      windowCtor w.windowType w.populationLimit w.energyLimit W.muMin W.muMax = .ok W.method := by
  unfold postWindow at h
  split at h
  · cases h
  · rw [Outcome.bind_eq_ok_iff] at h
    obtain ⟨m, h1, h2⟩ := h
    injection h2 with h2
    subst h2
    exact ⟨rfl, rfl, rfl, rfl, h1⟩

theorem flyWindow_ok (s : Statistics) (w : WindowInput) (temps : List ℝ) (W : ReadyWindow)
    (h : flyWindow s w temps = .ok W) : W.statistics = s ∧ W.temperatureMax = listMax temps ∧ W.muMin = 0 ∧
      W.muMax = 0 ∧ windowCtor w.windowType w.populationLimit w.energyLimit W.muMin W.muMax = .ok W.method := by
  unfold flyWindow at h
  split at h
  · cases h
  · rw [Outcome.bind_eq_ok_iff] at h
    obtain ⟨m, h1, h2⟩ := h
    injection h2 with h2
    subst h2
    exact ⟨rfl, rfl, rfl, rfl, h1⟩

/-- The selection of the builder, from the window to the energies stored in all processes. -/
theorem stored_selection {κ γ : Type} (bands : Nat) (sel : Nat → Option (Nat × Nat)) (n : Nat)
    (f : List Nat × List Nat × List Nat) (H : HamView κ ℝ γ) (coords : Nat → κ)
    (hsel : ∀ ik b, sel ik = some b → b.1 ≤ b.2)
    (hf : let serial := (List.range n).filterMap fun ik => (sel ik).map fun b => (ik, b)
      f = (serial.map (·.1), serial.map (·.2.1), serial.map (·.2.2)))
    (out : List (ActiveArrays ℝ γ))
    (hnum : ∀ ik, ik < (activeLayoutOf bands f).numPoints →
      f.2.1.getD ik 0 + (activeLayoutOf bands f).numBands ik = f.2.2.getD ik 0 + 1)
    (hout : ∀ A ∈ out, EnergiesOf (activeLayoutOf bands f) H (fun ik => coords (f.1.getD ik 0))
      (fun ik => f.2.1.getD ik 0) A)
    (ik b : Nat) (hik : ik < n) (p : Nat × Nat) (hp : sel ik = some p) (h1 : p.1 ≤ b) (h2 : b ≤ p.2) :
    StateKept bands f out ik b (H.energy (coords ik) b) := by
  obtain ⟨ia, hia, g1, g2, g3⟩ := (serial_index n sel f hf).1 ik p hik hp
  have hB : (activeLayoutOf bands f).numPoints = f.1.length := rfl
  refine ⟨ia, g1, by omega, by omega, ?_⟩
  intro A hA
  have hn := hnum ia (by omega)
  have := hout A hA ia (b - f.2.1.getD ia 0) (by omega) (by omega)
  have hb : f.2.1.getD ia 0 + (b - f.2.1.getD ia 0) = b := by omega
  have hk : f.1.getD ia 0 = ik := by rw [List.getD_eq_getElem?_getD, g1]; rfl
  simp only [hb, hk] at this
  exact this

/-- Electrons, or phonons as postprocessing: for every number of processes and threads and every interleaving, the
band structure of the builder has, with the energy of the Hamiltonian, every state that the user wants in some
calculation of the sweep, if the Hamiltonian has the symmetry of the mesh.  With the window of populations, only if
the chemical potential of the calculation is the smallest or the largest one or the state is not between them (see
`C180_violated_population`); phonons must have nonzero energy. -/
theorem C180_postprocessing_partial {γ : Type} [AddMonoid γ] {nProc rank n : Nat} {coords : Nat → V3 Rat}
    {lookup : V3 Rat → Outcome Int} {rots : List M3} (h : IrrSetup nProc rank n coords lookup rots) (irr : IrrPoints)
    (hirr : setIrreduciblePoints nProc rank n coords lookup rots none [] = .ok irr)
    (bands : Nat) (H : HamView (V3 Rat) ℝ γ) (hH : SymmetricEnergies rots coords n bands H)
    (s : Statistics) (force : Bool) (hf : s = .fermi ∨ force = true) (w : WindowInput) (sweep : Sweep) (temps : List ℝ)
    (sel : Nat → Option (Nat × Nat)) (hb : builderSelect s force w sweep temps H bands coords irr = .ok sel)
    (size : Nat) (mine : List (List (Nat × (Nat × Nat)))) (hscan : ActiveScan n size sel mine)
    (re : γ → ℝ) (withVec : Bool) :
    ∃ f, collectActive mine = .ok (List.replicate size f) ∧
      ∀ (we : Nat → List (Nat × ℝ)) (wu wv : Nat → List (Nat × γ)), PostWrites size bands mine H coords f we wu wv →
        ∃ out, activeArrays (activeLayoutOf bands f) re size true withVec true we wu wv = .ok out ∧ out.length = size ∧
          ∀ c ∈ sweep.table, 0 < c.temperature → ∀ ik b, ik < n → b < bands →
            let e := H.energy (coords ik) b
            (s = .bose → ∀ c' ∈ sweep.table, c'.chemicalPotential = 0 ∧ e ≠ 0) →
            (w.windowType = "population" → (∀ c' ∈ sweep.table, c.chemicalPotential ≤ c'.chemicalPotential) ∨
              (∀ c' ∈ sweep.table, c'.chemicalPotential ≤ c.chemicalPotential) ∨
              (∀ c' ∈ sweep.table, e < c'.chemicalPotential) ∨ (∀ c' ∈ sweep.table, c'.chemicalPotential < e)) →
            Wanted s w c.temperature c.chemicalPotential e → StateKept bands f out ik b e := by
  unfold builderSelect at hb
  rw [if_pos hf] at hb
  rw [Outcome.bind_eq_ok_iff] at hb
  obtain ⟨W, hW, hb⟩ := hb
  injection hb with hb
  have hsel : ∀ ik b, sel ik = some b → b.1 ≤ b.2 := by
    intro ik b hs
    rw [← hb] at hs
    exact select_le W _ _ hs
  obtain ⟨pts, chunks, hp1, hp2, hp3⟩ := hscan.run
  obtain ⟨f, f1, f2, f3, f4⟩ := C155_postprocessing_partial n size bands hscan.pos (by have := hscan.fit; norm_num at this; exact this) hscan.int sel hsel pts hp1
    chunks hp2 mine hscan.len hp3 H re coords withVec
  refine ⟨f, f1, ?_⟩
  intro we wu wv hwr
  obtain ⟨out, o1, o2, o3⟩ := f4 we wu wv hwr
  refine ⟨out, o1, o2, ?_⟩
  intro c hc hT ik b hik hbb e hbose hpop hwant
  obtain ⟨w1, w2, w3, w4, w5⟩ := postWindow_ok _ _ _ _ hW
  have hmem : c.chemicalPotential ∈ sweep.table.map (·.chemicalPotential) := List.mem_map.mpr ⟨c, hc, rfl⟩
  have hmu : W.muMin ≤ c.chemicalPotential ∧ c.chemicalPotential ≤ W.muMax := by
    rw [w3, w4]; exact ⟨listMin_le_mem _ _ hmem, mem_le_listMax _ _ hmem⟩
  have hminmem := listMin_mem (sweep.table.map (·.chemicalPotential)) (by intro hh; rw [hh] at hmem; simp at hmem)
  have hmaxmem := listMax_mem (sweep.table.map (·.chemicalPotential)) (by intro hh; rw [hh] at hmem; simp at hmem)
  rw [← w3] at hminmem
  rw [← w4] at hmaxmem
  obtain ⟨cm, hcm, hcm'⟩ := List.mem_map.mp hminmem
  obtain ⟨cM, hcM, hcM'⟩ := List.mem_map.mp hmaxmem
  obtain ⟨q1, q2⟩ := equiv_related h irr hirr ik hik
  have he : ((List.range bands).map fun b => H.energy (coords (irr.equiv ik)) b)[b]? = some e := by
    rw [range_energy bands b _ hbb, hH _ _ _ q1 hik hbb q2]
  obtain ⟨p, p1, p2, p3⟩ := wanted_selected w W c.temperature c.chemicalPotential e w5 hT
    (by rw [w2]; exact mem_le_listMax _ _ (List.mem_map.mpr ⟨c, hc, rfl⟩)) hmu _ b he
    (by
      rw [w1]
      intro hs
      rw [← hcm', ← hcM', (hbose hs c hc).1, (hbose hs cm hcm).1, (hbose hs cM hcM).1]
      have := (hbose hs c hc).2
      exact ⟨this, this, this⟩)
    (by
      intro ht
      rcases hpop ht with g | g | g | g
      · left; exact le_antisymm (by rw [← hcm']; exact g cm hcm) hmu.1
      · right; left; exact le_antisymm hmu.2 (by rw [← hcM']; exact g cM hcM)
      · right; right; left; rw [← hcm']; exact g cm hcm
      · right; right; right; rw [← hcM']; exact g cM hcM)
    (by rw [w1]; exact hwant)
  exact stored_selection bands sel n f H coords hsel f2 out f3 (fun A hA => (o3 A hA).1) ik b hik p
    (by rw [← hb]; exact p1) p2 p3

/-- Phonons, on the fly: likewise, at each temperature of the input, for every window; the energies need not have
any symmetry. -/
theorem C180_on_the_fly {κ γ : Type} [AddMonoid γ] (n : Nat) (coords : Nat → κ) (irr : IrrPoints)
    (bands : Nat) (H : HamView κ ℝ γ) (w : WindowInput) (sweep : Sweep) (temps : List ℝ)
    (sel : Nat → Option (Nat × Nat)) (hb : builderSelect .bose false w sweep temps H bands coords irr = .ok sel)
    (size : Nat) (hfit : n * size < sizeTMod) (mine : List (List (Nat × (Nat × Nat)))) (hscan : ActiveScan n size sel mine)
    (re : γ → ℝ) (withVec : Bool) :
    ∃ f, collectActive mine = .ok (List.replicate size f) ∧
      ∀ (we : Nat → List (Nat × ℝ)) (wu wv : Nat → List (Nat × γ)), FlyWrites size bands H coords f we wu wv →
        ∃ out, activeArrays (activeLayoutOf bands f) re size true withVec true we wu wv = .ok out ∧ out.length = size ∧
          ∀ T ∈ temps, 0 < T → ∀ ik b, ik < n → b < bands → H.energy (coords ik) b ≠ 0 →
            Wanted .bose w T 0 (H.energy (coords ik) b) → StateKept bands f out ik b (H.energy (coords ik) b) := by
  unfold builderSelect at hb
  rw [if_neg (by simp)] at hb
  rw [Outcome.bind_eq_ok_iff] at hb
  obtain ⟨W, hW, hb⟩ := hb
  injection hb with hb
  have hsel : ∀ ik b, sel ik = some b → b.1 ≤ b.2 := by
    intro ik b hs
    rw [← hb] at hs
    exact select_le W _ _ hs
  obtain ⟨pts, chunks, hp1, hp2, hp3⟩ := hscan.run
  obtain ⟨f, f1, f2, f3, f4⟩ := C155_on_the_fly_partial n size bands hscan.pos (by have := hscan.fit; norm_num at this; exact this) hfit hscan.int sel hsel pts hp1
    chunks hp2 mine hscan.len hp3 H re coords withVec
  refine ⟨f, f1, ?_⟩
  intro we wu wv hwr
  obtain ⟨out, o1, o2, o3⟩ := f4 we wu wv hwr
  refine ⟨out, o1, o2, ?_⟩
  intro T hTm hT ik b hik hbb hne hwant
  obtain ⟨w1, w2, w3, w4, w5⟩ := flyWindow_ok _ _ _ _ hW
  obtain ⟨p, p1, p2, p3⟩ := wanted_selected w W T 0 (H.energy (coords ik) b) w5 hT
    (by rw [w2]; exact mem_le_listMax _ _ hTm) (by rw [w3, w4]; exact ⟨le_rfl, le_rfl⟩) _ b
    (range_energy bands b (fun b => H.energy (coords ik) b) hbb)
    (by rw [w3, w4]; exact fun _ => ⟨hne, hne, hne⟩) (by rw [w3]; exact fun _ => .inl rfl)
    (by rw [w1]; exact hwant)
  exact stored_selection bands sel n f H coords hsel f2 out f3 (fun A hA => (o3 A hA).1) ik b hik p
    (by rw [← hb]; exact p1) p2 p3

/-- The bands kept at two points of the mesh related by a symmetry are the same (as postprocessing, whatever the
energies returned by the diagonalisation at the two points). -/
theorem C180_equivalent_points {γ : Type} {nProc rank n : Nat} {coords : Nat → V3 Rat}
    {lookup : V3 Rat → Outcome Int} {rots : List M3} (h : IrrSetup nProc rank n coords lookup rots) (irr : IrrPoints)
    (hirr : setIrreduciblePoints nProc rank n coords lookup rots none [] = .ok irr)
    (bands : Nat) (H : HamView (V3 Rat) ℝ γ) (s : Statistics) (force : Bool) (hf : s = .fermi ∨ force = true)
    (w : WindowInput) (sweep : Sweep) (temps : List ℝ)
    (sel : Nat → Option (Nat × Nat)) (hb : builderSelect s force w sweep temps H bands coords irr = .ok sel)
    (size : Nat) (mine : List (List (Nat × (Nat × Nat)))) (hscan : ActiveScan n size sel mine) :
    ∃ f, collectActive mine = .ok (List.replicate size f) ∧
      ∀ i j, i < n → j < n → SymRelated rots coords i j → ∀ b, BandKept f i b ↔ BandKept f j b := by
  unfold builderSelect at hb
  rw [if_pos hf] at hb
  rw [Outcome.bind_eq_ok_iff] at hb
  obtain ⟨W, hW, hb⟩ := hb
  injection hb with hb
  obtain ⟨pts, chunks, hp1, hp2, hp3⟩ := hscan.run
  obtain ⟨_, f1⟩ := activeLists n size hscan.pos (by have := hscan.fit; norm_num at this; exact this) hscan.int sel pts hp1 chunks hp2 mine hscan.len hp3
  refine ⟨_, f1, ?_⟩
  obtain ⟨c1, c2⟩ := serial_index n sel _ rfl
  have hhalf : ∀ i j, i < n → j < n → SymRelated rots coords i j → ∀ b,
      BandKept (((List.range n).filterMap fun ik => (sel ik).map fun b => (ik, b)).map (·.1),
        ((List.range n).filterMap fun ik => (sel ik).map fun b => (ik, b)).map (·.2.1),
        ((List.range n).filterMap fun ik => (sel ik).map fun b => (ik, b)).map (·.2.2)) i b →
      BandKept (((List.range n).filterMap fun ik => (sel ik).map fun b => (ik, b)).map (·.1),
        ((List.range n).filterMap fun ik => (sel ik).map fun b => (ik, b)).map (·.2.1),
        ((List.range n).filterMap fun ik => (sel ik).map fun b => (ik, b)).map (·.2.2)) j b := by
    intro i j hi hj hij b
    have hsame : irr.equiv i = irr.equiv j := equiv_same h irr hirr i j hi hj hij
    have hs : sel i = sel j := by rw [← hb]; simp only [postSelect, hsame]
    rintro ⟨ia, g1, g2, g3⟩
    obtain ⟨_, _, g4⟩ := c2 ia i g1
    obtain ⟨ja, _, k1, k2, k3⟩ := c1 j _ hj (hs ▸ g4)
    exact ⟨ja, k1, by rw [k2]; exact g2, by rw [k3]; exact g3⟩
  intro i j hi hj hij b
  exact ⟨hhalf i j hi hj hij b, hhalf j i hj hi (symRel_symm h.group hij) b⟩

/-- With the window of energies and ascending energies, nothing else is kept: a band of a point is kept if and only
if its energy is strictly inside the window. -/
theorem C180_energy_window {γ : Type} {nProc rank n : Nat} {coords : Nat → V3 Rat}
    {lookup : V3 Rat → Outcome Int} {rots : List M3} (h : IrrSetup nProc rank n coords lookup rots) (irr : IrrPoints)
    (hirr : setIrreduciblePoints nProc rank n coords lookup rots none [] = .ok irr)
    (bands : Nat) (H : HamView (V3 Rat) ℝ γ) (hH : SymmetricEnergies rots coords n bands H)
    (hasc : ∀ q b b', b ≤ b' → b' < bands → H.energy q b ≤ H.energy q b')
    (s : Statistics) (force : Bool) (w : WindowInput) (hw : w.windowType = "energy") (lo hi : ℝ) (hlo : lo < hi)
    (hl : w.energyLimit = some (lo, hi)) (sweep : Sweep) (temps : List ℝ)
    (sel : Nat → Option (Nat × Nat)) (hb : builderSelect s force w sweep temps H bands coords irr = .ok sel)
    (size : Nat) (mine : List (List (Nat × (Nat × Nat)))) (hscan : ActiveScan n size sel mine) :
    ∃ f, collectActive mine = .ok (List.replicate size f) ∧
      ∀ ik b, ik < n → (BandKept f ik b ↔ b < bands ∧ lo < H.energy (coords ik) b ∧ H.energy (coords ik) b < hi) := by
  have hkey : ∀ W : ReadyWindow, windowCtor w.windowType w.populationLimit w.energyLimit W.muMin W.muMax = .ok W.method →
      ∀ q b, (∃ p, W.select ((List.range bands).map fun b => H.energy q b) = some p ∧ p.1 ≤ b ∧ b ≤ p.2) ↔
        b < bands ∧ lo < H.energy q b ∧ H.energy q b < hi := by
    intro W hW q b
    rw [hw] at hW
    obtain ⟨a, c, hl', hm, _⟩ := C31_ctor _ _ _ _ _ hW
    rw [hl] at hl'
    cases hl'
    rw [← mem_select, hm]
    simp only [windowApply]
    rw [C31_bands, min_eq_left hlo.le, max_eq_right hlo.le]
    · constructor
      · rintro ⟨e, h1, h2⟩
        have hbb : b < bands := by
          have := (List.getElem?_eq_some_iff.mp h1).1
          simpa using this
        rw [range_energy bands b _ hbb] at h1
        cases h1
        exact ⟨hbb, h2⟩
      · rintro ⟨hbb, h2⟩
        exact ⟨_, range_energy bands b _ hbb, h2⟩
    · rw [List.pairwise_map]
      refine List.Pairwise.imp_of_mem ?_ (List.pairwise_lt_range (n := bands))
      intro x y hx hy hxy
      exact hasc q x y hxy.le (List.mem_range.mp hy)
  have hselq : ∀ ik b, ik < n → ((∃ p, sel ik = some p ∧ p.1 ≤ b ∧ b ≤ p.2) ↔
      b < bands ∧ lo < H.energy (coords ik) b ∧ H.energy (coords ik) b < hi) := by
    intro ik b hik
    unfold builderSelect at hb
    split at hb
    · rw [Outcome.bind_eq_ok_iff] at hb
      obtain ⟨W, hW, hb⟩ := hb
      injection hb with hb
      rw [← hb]
      simp only [postSelect]
      rw [hkey W (postWindow_ok _ _ _ _ hW).2.2.2.2]
      obtain ⟨q1, q2⟩ := equiv_related h irr hirr ik hik
      constructor
      · rintro ⟨hbb, g⟩
        rw [hH _ _ _ q1 hik hbb q2] at g
        exact ⟨hbb, g⟩
      · rintro ⟨hbb, g⟩
        rw [← hH _ _ _ q1 hik hbb q2] at g
        exact ⟨hbb, g⟩
    · rw [Outcome.bind_eq_ok_iff] at hb
      obtain ⟨W, hW, hb⟩ := hb
      injection hb with hb
      rw [← hb]
      simp only [flySelect]
      rw [hkey W (flyWindow_ok _ _ _ _ hW).2.2.2.2]
  obtain ⟨pts, chunks, hp1, hp2, hp3⟩ := hscan.run
  obtain ⟨_, f1⟩ := activeLists n size hscan.pos (by have := hscan.fit; norm_num at this; exact this) hscan.int sel pts hp1 chunks hp2 mine hscan.len hp3
  refine ⟨_, f1, ?_⟩
  obtain ⟨c1, c2⟩ := serial_index n sel _ rfl
  intro ik b hik
  rw [← hselq ik b hik]
  constructor
  · rintro ⟨ia, g1, g2, g3⟩
    exact ⟨_, (c2 ia ik g1).2.2, g2, g3⟩
  · rintro ⟨p, p1, p2, p3⟩
    obtain ⟨ia, _, k1, k2, k3⟩ := c1 ik p hik p1
    exact ⟨ia, k1, by rw [k2]; exact p2, by rw [k3]; exact p3⟩

/-- A sweep without calculations: the extremes of an empty list are read. -/
theorem C180_no_calculations {κ γ : Type} (force : Bool) (w : WindowInput) (sweep : Sweep) (hs : sweep.table = [])
    (temps : List ℝ) (H : HamView κ ℝ γ) (bands : Nat) (coords : Nat → κ) (irr : IrrPoints) :
    builderSelect .fermi force w sweep temps H bands coords irr = .ub := by
  unfold builderSelect postWindow
  rw [if_pos (.inl rfl), if_pos hs]
  rfl

/-- Some execution of the scan by one thread of one process. -/
theorem scan_exists {β : Type} (sel : Nat → Option β) (iks : List Nat) : ∃ merged, ScanRun sel [iks] merged := by
  have key : ∀ (todo : List Nat) (found : List (Nat × β)), ∃ all,
      Relation.ReflTransGen (ScanStep sel) ⟨[⟨todo, found⟩], 0, []⟩ ⟨[⟨[], all⟩], 0, []⟩ := by
    intro todo
    induction todo with
    | nil => intro found; exact ⟨found, Relation.ReflTransGen.refl⟩
    | cons ik rest ih =>
      intro found
      obtain ⟨all, h⟩ := ih (scanOne sel found ik)
      exact ⟨all, Relation.ReflTransGen.head (ScanStep.scan ⟨[⟨ik :: rest, found⟩], 0, []⟩ 0 ik rest found rfl) h⟩
  obtain ⟨all, h⟩ := key iks []
  exact ⟨all, ⟨[⟨[], all⟩], 1, all⟩,
    Relation.ReflTransGen.tail h (ScanStep.merge ⟨[⟨[], all⟩], 0, []⟩ all rfl), rfl, rfl⟩

theorem activeScan_exists (n : Nat) (sel : Nat → Option (Nat × Nat)) : ∃ mine, ActiveScan n 1 sel mine := by
  obtain ⟨m, hm⟩ := scan_exists sel (List.range n)
  refine ⟨[m], by decide, by decide, by decide, rfl, fun _ => List.range n, fun _ => [List.range n], by simp, by simp, ?_⟩
  intro r hr
  have : r = 0 := by simpa using hr
  subst this
  exact hm

/-- VIOLATED for the window of populations: electrons at temperature 1 with the chemical potentials -20, 0 and 20.
A half-filled state of the calculation with zero chemical potential has a factor 1/4, above the limit 0.01, and is not
kept; the sweep and the band structure are built without any error. -/
theorem C180_violated_population : ∃ (sweep : Sweep) (w : WindowInput) (H : HamView (V3 Rat) ℝ ℝ) (irr : IrrPoints)
    (sel : Nat → Option (Nat × Nat)) (mine : List (List (Nat × (Nat × Nat)))) (f : List Nat × List Nat × List Nat),
    electronSweep [1] [] [-20, 0, 20] (fun _ _ => 0) (fun _ _ => 0) = .ok sweep ∧
    setIrreduciblePoints 3 1 4 (fun k => meshCoordinates ⟨2, 2, 1⟩ ⟨0, 0, 0⟩ k)
      (fun p => .ok (isPointStoredMesh ⟨2, 2, 1⟩ ⟨0, 0, 0⟩ p)) exampleGroup none [] = .ok irr ∧
    builderSelect .fermi false w sweep [1] H 1 (fun k => meshCoordinates ⟨2, 2, 1⟩ ⟨0, 0, 0⟩ k) irr = .ok sel ∧
    ActiveScan 4 1 sel mine ∧ collectActive mine = .ok (List.replicate 1 f) ∧
    (∃ c ∈ sweep.table, c.chemicalPotential = 0 ∧ c.temperature = 1 ∧
      Wanted .fermi w c.temperature c.chemicalPotential (H.energy ⟨0, 0, 0⟩ 0)) ∧
    ∀ ik b, ¬ BandKept f ik b := by
  obtain ⟨sweep, s1, s2, _⟩ := C36_chemical_potentials_partial [1] [-20, 0, 20] (fun _ _ => 0) (fun _ _ => 0) (by simp)
    (by decide)
  obtain ⟨irr, i1, _⟩ := C18_stars exampleSetup none
  have htab : sweep.table = [⟨1, -20, 0⟩, ⟨1, 0, 0⟩, ⟨1, 20, 0⟩] := by rw [s2]; rfl
  let w : WindowInput := ⟨"population", some 0.01, none⟩
  let H : HamView (V3 Rat) ℝ ℝ := ⟨fun _ _ => 0, fun _ _ _ => 1, fun _ _ _ _ => 0⟩
  let W : ReadyWindow := ⟨.fermi, .population 0.01, 1, -20, 20⟩
  have hW : postWindow .fermi w sweep = .ok W := by
    unfold postWindow
    rw [htab, if_neg (by simp)]
    have h1 : listMin [(-20 : ℝ), 0, 20] = -20 := by simp [listMin]
    have h2 : listMax [(-20 : ℝ), 0, 20] = 20 := by simp [listMax]
    have h3 : listMax [(1 : ℝ), 1, 1] = 1 := by simp [listMax]
    simp only [List.map_cons, List.map_nil, h1, h2, h3]
    rfl
  have hzero : 0 ∉ keptBands (windowApply .fermi (.population 0.01) 1 (-20) 20 [0]) := by
    intro hb
    refine C32_violated ?_
    intro b' e he hb'
    cases b' with
    | zero => exact absurd hb hb'
    | succ m => simp at he
  have hsel : W.select [0] = none := by
    have hz : ¬ ∃ p, W.select [0] = some p ∧ p.1 ≤ 0 ∧ 0 ≤ p.2 := fun h => hzero ((mem_select W [0] 0).mpr h)
    have hcase : W.select [0] = none ∨ W.select [0] = some (0, 0) := by
      simp only [ReadyWindow.select, W, windowApply, internalPopWindow, selectLoop]
      by_cases hk : (decide (|(List.map (fun e => getPopPopPm1 .fermi e 1 (-20)) [(0 : ℝ)]).getD 0 0| > 0.01) ||
          decide (|(List.map (fun e => getPopPopPm1 .fermi e 1 20) [(0 : ℝ)]).getD 0 0| > 0.01)) = true
      · rw [if_pos hk]; right; rfl
      · rw [if_neg hk]; left; rfl
    rcases hcase with h | h
    · exact h
    · exact absurd ⟨(0, 0), h, le_rfl, le_rfl⟩ hz
  let sel := postSelect W H 1 (fun k => meshCoordinates ⟨2, 2, 1⟩ ⟨0, 0, 0⟩ k) irr
  have hnone : ∀ ik, sel ik = none := fun ik => hsel
  obtain ⟨mine, hm⟩ := activeScan_exists 4 sel
  obtain ⟨pts, chunks, hp1, hp2, hp3⟩ := hm.run
  obtain ⟨_, f1⟩ := activeLists 4 1 hm.pos (by decide) hm.int sel pts hp1 chunks hp2 mine hm.len hp3
  refine ⟨sweep, w, H, irr, sel, mine, _, s1, i1, ?_, hm, f1, ⟨⟨1, 0, 0⟩, by rw [htab]; simp, rfl, rfl, ?_⟩, ?_⟩
  · unfold builderSelect
    rw [if_pos (.inl rfl), hW]
    rfl
  · refine Wanted.population rfl ?_
    simp only [w, H, occupationFactor, Option.getD_some]
    norm_num
  · rintro ik b ⟨ia, h, _⟩
    have := (serial_index 4 sel _ rfl).2 ia ik h
    rw [hnone] at this
    simp at this

/-! ## The hypotheses are met -/

/-- Two bands of a square lattice, `cos(2π x) + cos(2π y)` and the same ten units above. -/
noncomputable def exActiveHam : HamView (V3 Rat) ℝ ℝ where
  energy q b := Real.cos (2 * Real.pi * (q.x : ℝ)) + Real.cos (2 * Real.pi * (q.y : ℝ)) + 10 * b
  vector _ _ _ := 1
  velocity _ _ _ _ := 0

theorem exActive_symmetric : SymmetricEnergies exampleGroup (fun k => meshCoordinates ⟨2, 2, 1⟩ ⟨0, 0, 0⟩ k) 4 2
    exActiveHam := by
  have hper : ∀ (x : Rat) (g : Int), Real.cos (2 * Real.pi * (((x + g : Rat)) : ℝ)) = Real.cos (2 * Real.pi * (x : ℝ)) := by
    intro x g
    have : 2 * Real.pi * (((x + (g : Rat) : Rat)) : ℝ) = 2 * Real.pi * (x : ℝ) + g * (2 * Real.pi) := by
      push_cast; ring
    rw [this, Real.cos_add_int_mul_two_pi]
  have key : ∀ (p q : V3 Rat) (b : Nat), Equivalent p q → exActiveHam.energy p b = exActiveHam.energy q b := by
    rintro p q b ⟨g, rfl⟩
    simp only [exActiveHam, translate, hper]
  intro i j b _ _ _ hij
  obtain ⟨R, hR, he⟩ := hij
  rw [← key _ _ b he]
  simp only [exampleGroup, List.mem_cons, List.not_mem_nil, or_false] at hR
  rcases hR with rfl | rfl
  · rw [one_mulVec]
  · simp [exActiveHam, M3.mulVec, V3.dot, add_comm]

/-- Electrons of those bands with a window of energies around the lower band: the builder succeeds, the scan runs, the
lower band of the first point, with energy two, is wanted and the upper one, with energy twelve, is not. -/
example : ∃ (sweep : Sweep) (w : WindowInput) (irr : IrrPoints) (sel : Nat → Option (Nat × Nat))
    (mine : List (List (Nat × (Nat × Nat)))),
    electronSweep [1] [] [0, 3] (fun _ _ => 0) (fun _ _ => 0) = .ok sweep ∧
    setIrreduciblePoints 3 1 4 (fun k => meshCoordinates ⟨2, 2, 1⟩ ⟨0, 0, 0⟩ k)
      (fun p => .ok (isPointStoredMesh ⟨2, 2, 1⟩ ⟨0, 0, 0⟩ p)) exampleGroup none [] = .ok irr ∧
    builderSelect .fermi false w sweep [1] exActiveHam 2 (fun k => meshCoordinates ⟨2, 2, 1⟩ ⟨0, 0, 0⟩ k) irr = .ok sel ∧
    ActiveScan 4 1 sel mine ∧ (⟨1, 3, 0⟩ : CalcRow) ∈ sweep.table ∧
    Wanted .fermi w 1 3 (exActiveHam.energy (meshCoordinates ⟨2, 2, 1⟩ ⟨0, 0, 0⟩ 0) 0) ∧
    ¬ Wanted .fermi w 1 3 (exActiveHam.energy (meshCoordinates ⟨2, 2, 1⟩ ⟨0, 0, 0⟩ 0) 1) := by
  obtain ⟨sweep, s1, s2, _⟩ := C36_chemical_potentials_partial [1] [0, 3] (fun _ _ => 0) (fun _ _ => 0) (by simp)
    (by decide)
  obtain ⟨irr, i1, _⟩ := C18_stars exampleSetup none
  have htab : sweep.table = [⟨1, 0, 0⟩, ⟨1, 3, 0⟩] := by rw [s2]; rfl
  let w : WindowInput := ⟨"energy", none, some (-3, 3)⟩
  let W : ReadyWindow := ⟨.fermi, .energy (-3) 3, 1, 0, 3⟩
  have hW : postWindow .fermi w sweep = .ok W := by
    unfold postWindow
    rw [htab, if_neg (by simp)]
    have h1 : listMin [(0 : ℝ), 3] = 0 := by simp [listMin]
    have h2 : listMax [(0 : ℝ), 3] = 3 := by simp [listMax]
    have h3 : listMax [(1 : ℝ), 1] = 1 := by simp [listMax]
    have h4 : windowCtor "energy" none (some (-3, 3)) 0 3 = .ok (.energy (-3) 3) := by
      unfold windowCtor
      rw [if_neg (by decide), if_pos rfl]
      norm_num
    simp only [List.map_cons, List.map_nil, h1, h2, h3, w, h4]
    rfl
  have hq : meshCoordinates ⟨2, 2, 1⟩ ⟨0, 0, 0⟩ 0 = ⟨0, 0, 0⟩ := by decide +kernel
  obtain ⟨mine, hm⟩ := activeScan_exists 4 (postSelect W exActiveHam 2 (fun k => meshCoordinates ⟨2, 2, 1⟩ ⟨0, 0, 0⟩ k) irr)
  refine ⟨sweep, w, irr, _, mine, s1, i1, ?_, hm, by rw [htab]; simp, ?_, ?_⟩
  · unfold builderSelect
    rw [if_pos (.inl rfl), hW]
    rfl
  · refine Wanted.energy (-3) 3 rfl rfl ?_ ?_ <;> rw [hq] <;> norm_num [exActiveHam]
  · rw [hq]
    have hv : exActiveHam.energy ⟨0, 0, 0⟩ 1 = 12 := by norm_num [exActiveHam]
    rw [hv]
    intro hwant
    cases hwant with
    | energy a b _ hl _ h2 => cases hl; norm_num at h2
    | centered a b h => simp [w] at h
    | population h => simp [w] at h
    | all h => simp [w] at h

end Verif.Props
