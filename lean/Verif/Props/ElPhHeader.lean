import Verif.Proofs.ElPhHeader
import Verif.Props.ElPhRead

/-!
# C164: the lattice vectors of a process go with its part of the electron-phonon coupling
-/
namespace Verif.Props
open Verif.Model Verif.Spec

variable {α V D : Type}

private theorem mapOutcome_append_one {β γ : Type} {F : β → Outcome γ} {l : List β} {x : β} {ys : List γ} {y : γ}
    (h : mapOutcome F l = .ok ys) (hx : F x = .ok y) : mapOutcome F (l ++ [x]) = .ok (ys ++ [y]) := by
  induction l generalizing ys with
  | nil =>
    cases h
    simp [mapOutcome, hx, Outcome.bind_eq, Outcome.bind_ok]
  | cons a l ih =>
    simp only [List.cons_append, mapOutcome, Outcome.bind_eq_ok_iff] at h ⊢
    obtain ⟨b, hb, bs, hbs, e⟩ := h
    rw [Outcome.ok.injEq] at e
    exact ⟨b, hb, _, ih hbs, by rw [← e]; rfl⟩

/-- C164: the processes of any pool, one after the other, have the lattice vectors and the degeneracies of the electrons as
they are in the file, each once; every process has all those of the phonons, the numbers of bands and of electrons. -/
theorem C164_pool (f : ElPhFile V D) (size ps pool : Nat) (hps : 0 < ps) (hd : ps ∣ size) (hp : pool < size / ps)
    (hf : ElPhFileFits f ps) :
    ∃ hs, mapOutcome (elphHeader f size ps) ((List.range ps).map (pool * ps + ·)) = .ok hs ∧
      hs.flatMap (·.elVectors) = f.elVectors ∧ hs.flatMap (·.elDegeneracies) = f.elDegeneracies ∧
      ∀ h ∈ hs, h.phVectors = f.phVectors ∧ h.phDegeneracies = f.phDegeneracies ∧ h.numElBands = f.numElBands ∧
        h.numPhBands = f.numPhModes ∧ h.totalEl = f.elVectors.length ∧ h.occupied = f.numElectrons := by
  have hrank : ∀ r < ps, pool * ps + r < size := by
    intro r hr
    obtain ⟨k, rfl⟩ := hd
    rw [Nat.mul_div_cancel_left _ hps] at hp
    nlinarith
  have hmod : ∀ r < ps, (pool * ps + r) % ps = r := by
    intro r hr
    rw [Nat.add_comm, Nat.add_mul_mod_self_right, Nat.mod_eq_of_lt hr]
  have key : ∀ k ≤ ps, ∃ hs, mapOutcome (elphHeader f size ps) ((List.range k).map (pool * ps + ·)) = .ok hs ∧
      hs.flatMap (·.elVectors) = (List.range k).flatMap (blockOf f.elVectors ps) ∧
      hs.flatMap (·.elDegeneracies) = (List.range k).flatMap (blockOf f.elDegeneracies ps) ∧
      ∀ h ∈ hs, h.phVectors = f.phVectors ∧ h.phDegeneracies = f.phDegeneracies ∧ h.numElBands = f.numElBands ∧
        h.numPhBands = f.numPhModes ∧ h.totalEl = f.elVectors.length ∧ h.occupied = f.numElectrons := by
    intro k hk
    induction k with
    | zero => exact ⟨[], rfl, rfl, rfl, by simp⟩
    | succ k ih =>
      obtain ⟨hs, e, e1, e2, e3⟩ := ih (by omega)
      obtain ⟨w, -, hw⟩ := elphHeader_val f size ps (pool * ps + k) hps hd (hrank k (by omega)) hf
      rw [hmod k (by omega)] at hw
      have e' := mapOutcome_append_one e hw
      rw [← List.map_singleton (f := (pool * ps + ·)), ← List.map_append, ← List.range_succ] at e'
      refine ⟨_, e', ?_, ?_, ?_⟩
      · rw [List.flatMap_append, e1, List.range_succ, List.flatMap_append]
        simp
      · rw [List.flatMap_append, e2, List.range_succ, List.flatMap_append]
        simp
      · intro h hh
        rcases List.mem_append.mp hh with hh | hh
        · exact e3 h hh
        · rw [List.mem_singleton.mp hh]
          exact ⟨rfl, rfl, rfl, rfl, rfl, rfl⟩
  obtain ⟨hs, e, e1, e2, e3⟩ := key ps le_rfl
  rw [blocks_all _ _ hps] at e1 e2
  exact ⟨hs, e, e1, e2, e3⟩

/-- The positions of a process and of its part of the tensor. -/
private theorem matches_block (f : ElPhFile V D) (g : Nat → Nat → α) (perBV ps r : Nat) (hr : r < ps)
    (hf : ElPhFileFits f ps) (h : ElPhHeader V D) (h1 : h.elVectors = blockOf f.elVectors ps r)
    (h2 : h.elDegeneracies = blockOf f.elDegeneracies ps r) {w : List Nat}
    (hw : divideWorkIter f.elVectors.length r ps = .ok w) :
    HeaderMatches f g perBV h (elementsOf g perBV w) := by
  have hle : head f.elVectors.length ps (r + 1) ≤ f.elVectors.length := head_le hr (by omega)
  rw [divideWorkIter_val hf.fits hr, Outcome.ok.injEq] at hw
  subst hw
  unfold HeaderMatches
  rw [h1, h2, elementsOf_length, List.length_range', blockOf_length _ _ _ hr, blockOf_length _ _ _ hr, hf.electrons]
  refine ⟨rfl, rfl, fun i hi => ?_⟩
  refine ⟨head f.elVectors.length ps r + i, ?_, ?_, ?_, ?_⟩
  · rw [← hf.electrons] at hi
    omega
  · rw [h1, blockOf_getElem? _ _ _ _ (by rw [hf.electrons]; exact hi)]
  · rw [h2, blockOf_getElem? _ _ _ _ hi, hf.electrons]
  · intro j hj
    rw [hf.electrons]
    exact elementsOf_block_getElem? g perBV _ _ i j hi hj

/-- C164 with pools: the part of the tensor that a process reads, or receives from the first pool, holds the coupling of the
vectors in its header, position by position.  This for both formats of the file, and for the first format with HDF5 that is
not parallel.  At least one lattice vector for each process of a pool. -/
theorem C164_matches_pools [Zero α] (f : ElPhFile V D) (g : Nat → Nat → α) (perBV size ps rank : Nat) (hps : 1 < ps)
    (hd : ps ∣ size) (hr : rank < size) (hf : ElPhFileFits f ps) (hn : ps ≤ f.elVectors.length) :
    ∃ h t, elphHeader f size ps rank = .ok h ∧
      v1Pool (elementsOf g perBV (List.range f.elVectors.length)) h.totalEl perBV (rank % ps) ps = .ok t ∧
      v2Pool (fun r => (List.range perBV).map (g r)) h.totalEl perBV (rank % ps) ps = .ok t ∧
      v1Serial (elementsOf g perBV (List.range f.elVectors.length)) perBV ps h = .ok t ∧
      HeaderMatches f g perBV h t := by
  have hmod : rank % ps < ps := Nat.mod_lt _ (by omega)
  obtain ⟨w, hw, e⟩ := elphHeader_val f size ps rank (by omega) hd hr hf
  obtain ⟨w1, hw1, e1⟩ := C121_format1_pools_partial g f.elVectors.length perBV (rank % ps) ps hmod hf.fits hn
  obtain ⟨w2, hw2, e2⟩ := C121_format2_pools g f.elVectors.length perBV (rank % ps) ps hmod hf.fits
  rw [hw hps, Outcome.ok.injEq] at hw1 hw2
  subst hw1
  subst hw2
  refine ⟨_, _, e, e1, e2, ?_, matches_block f g perBV ps _ hmod hf _ rfl rfl (hw hps)⟩
  have hle : head f.elVectors.length ps (rank % ps + 1) ≤ f.elVectors.length := head_le hmod (by omega)
  have hlt : head f.elVectors.length ps (rank % ps) < head f.elVectors.length ps (rank % ps + 1) :=
    head_strict (by omega) hn
  have hw' := hw hps
  rw [divideWorkIter_val hf.fits hmod, Outcome.ok.injEq] at hw'
  subst hw'
  have hh : (List.range' (head f.elVectors.length ps (rank % ps)) (head f.elVectors.length ps (rank % ps + 1) -
      head f.elVectors.length ps (rank % ps))).head? = some (head f.elVectors.length ps (rank % ps)) := by
    rw [List.head?_range']
    rw [if_neg (by omega)]
  unfold v1Serial
  rw [if_neg (by omega)]
  simp only [hh]
  rw [blockOf_length _ _ _ hmod, ← hf.electrons]
  unfold selectData
  rw [if_pos, elementsOf_block _ _ _ _ _ (by omega)]
  rw [elementsOf_length, List.length_range, ← Nat.add_mul]
  exact Nat.mul_le_mul_right _ (by omega)

/-- C164 without pools: every process has all the vectors of the file, and the whole tensor read from a file of the first
format. -/
theorem C164_matches [Zero α] (f : ElPhFile V D) (g : Nat → Nat → α) (perBV size rank : Nat) (hp : 0 < perBV)
    (hr : rank < size) (hf : ElPhFileFits f size) (hn : size ≤ f.elVectors.length)
    (hone : size = 1 → f.elVectors.length * perBV < 4294967296) :
    ∃ h t, elphHeader f size 1 rank = .ok h ∧ h.elVectors = f.elVectors ∧ h.elDegeneracies = f.elDegeneracies ∧
      v1Read (elementsOf g perBV (List.range f.elVectors.length)) h.totalEl perBV size = .ok t ∧
      v1Serial (elementsOf g perBV (List.range f.elVectors.length)) perBV 1 h = .ok t ∧
      HeaderMatches f g perBV h t := by
  have hf1 : ElPhFileFits f 1 := ⟨hf.phonons, hf.electrons, hf.unpolarised, by
    have := hf.fits
    nlinarith⟩
  obtain ⟨w, -, e⟩ := elphHeader_val f size 1 rank (by omega) (Nat.one_dvd _) hr hf1
  have b1 : ∀ {β : Type} (l : List β), blockOf l 1 (rank % 1) = l := by
    intro β l
    simp [blockOf, head, Nat.mod_one]
  rw [b1, b1] at e
  refine ⟨_, _, e, rfl, rfl, C121_format1_partial g f.elVectors.length perBV size hp (by omega) hf.fits hn hone, rfl, ?_⟩
  refine matches_block f g perBV 1 0 (by omega) hf1 _ (by simp [blockOf, head]) (by simp [blockOf, head]) ?_
  rw [divideWorkIter_val hf1.fits (by omega)]
  simp [head, List.range_eq_range']

/-- C164: processes of different pools with the same rank in their pool have the same vectors. -/
theorem C164_same (f : ElPhFile V D) (size ps r1 r2 : Nat) (hps : 0 < ps) (hd : ps ∣ size) (h1 : r1 < size) (h2 : r2 < size)
    (hf : ElPhFileFits f ps) (he : r1 % ps = r2 % ps) :
    ∃ a b, elphHeader f size ps r1 = .ok a ∧ elphHeader f size ps r2 = .ok b ∧ a.elVectors = b.elVectors ∧
      a.elDegeneracies = b.elDegeneracies ∧ a.phVectors = b.phVectors ∧ a.phDegeneracies = b.phDegeneracies := by
  obtain ⟨w, -, e⟩ := elphHeader_val f size ps r1 hps hd h1 hf
  obtain ⟨w', -, e'⟩ := elphHeader_val f size ps r2 hps hd h2 hf
  exact ⟨_, _, e, e', by rw [he], by rw [he], rfl, rfl⟩

/-- C164: the coupling of a spin-polarised calculation is refused. -/
theorem C164_spin (f : ElPhFile V D) (size ps rank : Nat) (hps : 0 < ps) (hd : ps ∣ size) (hr : rank < size)
    (hf : ElPhFileFits { f with numSpin := 1 } ps) (hs : f.numSpin = 2) : elphHeader f size ps rank = .error := by
  have hmod : rank % ps < ps := Nat.mod_lt _ hps
  have hle : rank % ps ≤ rank := Nat.mod_le _ _
  have e : headPoolHeader f (rank % ps) ps = headPoolHeader { f with numSpin := 1 } (rank % ps) ps := rfl
  unfold elphHeader
  rw [C08_accepts size ps rank hps hd hr, interRoot_val size ps rank hps hr]
  simp only [Outcome.bind_eq, Outcome.bind_ok]
  rw [C08_accepts size ps (rank % ps) hps hd (by omega)]
  simp only [Outcome.bind_ok, Nat.mod_mod, Nat.div_eq_of_lt hmod, ne_eq, not_true_eq_false, if_false]
  rw [e, headPool_val _ _ ps hmod hf]
  simp only [Outcome.bind_ok, if_pos hs]

/-- Five vectors on two pools of two processes. -/
def exampleElPh : ElPhFile Nat Int :=
  { numElectrons := 8, numSpin := 1, numElBands := 4, numPhModes := 6, phVectors := [50, 51], phDegeneracies := [1, 2],
    elVectors := [10, 11, 12, 13, 14], elDegeneracies := [1, 2, 3, 4, 5] }

/-- The hypotheses can be met: the last process, in the second pool, has the last three vectors. -/
example : ElPhFileFits exampleElPh 2 ∧ 2 ∣ 4 ∧ 2 ≤ exampleElPh.elVectors.length ∧
    ∃ h, elphHeader exampleElPh 4 2 3 = .ok h ∧ h.elVectors = [12, 13, 14] ∧ h.elDegeneracies = [3, 4, 5] ∧
      h.localEl = [2, 3, 4] :=
  ⟨⟨rfl, rfl, by decide, by decide⟩, by decide, by decide, _, rfl, rfl, rfl, rfl⟩

example : elphHeader { exampleElPh with numSpin := 2 } 4 2 3 = .error := rfl

end Verif.Props
