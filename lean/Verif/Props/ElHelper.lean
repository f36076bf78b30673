import Verif.Proofs.ElHelper
import Verif.Props.ThirdState

/-! # C166: the phonon of an electron-phonon process -/
namespace Verif.Props
open Verif.Model Verif.Spec Verif.Proofs.ElHelper

variable {α γ υ ω : Type}

/-- For every number of processes, the table of polar data gathered by the processes has, for each wavevector of the
list, what was computed for that wavevector, and asking for any other wavevector throws. -/
theorem C166_polar (zero : γ) (size nb : Nat) (hs : 0 < size) (its : List Nat) (part1 : Nat → Outcome (List γ))
    (hpart : ∀ i ∈ its, ∃ c, part1 i = .ok c ∧ c.length = nb)
    (hfit : its.length * size < sizeTMod) (hint : (its.length : Int) ≤ intMax)
    (hbig : ((nb * its.length : Nat) : Int) ≤ intMax) :
    ∃ table, polarTable zero size nb its part1 = .ok table ∧
      ∀ i, (i ∈ its → polarAt table i = part1 i) ∧ (i ∉ its → polarAt table i = .error) := by
  choose! col hcol using hpart
  refine ⟨_, polarTable_val zero size nb hs its part1 col hcol hfit hint hbig, fun i => ⟨fun hi => ?_, fun hi => ?_⟩⟩
  · rw [polarAt_mem its col i hi, (hcol i hi).1]
  · exact polarAt_not_mem its col i hi

example : (polarTable 0 2 2 [0, 4, 7] (fun i => .ok [i, 10 * i]) >>= fun t => polarAt t 7) = .ok [7, 70] := by
  decide +kernel
example : (polarTable 0 4 2 [5, 4, 7] (fun i => .ok [i, 10 * i]) >>= fun t => polarAt t 4) = .ok [4, 40] := by
  decide +kernel
example : (polarTable 0 4 2 [5, 4, 7] (fun i => .ok [i, 10 * i]) >>= fun t => polarAt t 6) = .error := by
  decide +kernel

/-- Stored phonons: for any points `P` and any pair whose wavevector `k2 - k1` is found in them, the answer is made of
the phonons at a point equal to `k2 - k1` up to a reciprocal lattice vector. -/
theorem C166_stored (zero : γ) (window : Bool) (size nb : Nat) (hs : 0 < size) (full P : Points) (active : Outcome Points)
    (hP : (if window then active else .ok full) = .ok P) (bandsOf : Points → StoredPhonons α υ ω)
    (part1 : V3 Rat → υ → Outcome (List γ)) (F : PhononField α γ υ ω) (hpts : (bandsOf P).points = P)
    (hF : Holds (bandsOf P) F) (hpol : ∀ p, part1 p (F.vectors p) = .ok (F.polar p))
    (hnb : ∀ p, (F.polar p).length = nb) (hco : ∀ i < P.numPoints, ∃ p, P.getPointCoordinates i = .ok p)
    (hfit : P.numPoints * size < sizeTMod) (hint : (P.numPoints : Int) ≤ intMax)
    (hbig : ((nb * P.numPoints : Nat) : Int) ≤ intMax) :
    ∃ h, ElHelper.make zero true ⟨0, 0, 0⟩ window size nb full active bandsOf part1 = .ok h ∧
      (∀ inner compute k1 l, h.prepare inner compute k1 l = .ok h) ∧
      ∀ (inner : Points) pop temps adaptive (k1 k2 : V3 Rat) (j : Int), inner.getPointCoordinates j = .ok k2 →
        FoundAt P (elThird P k1 k2) (k2.sub k1) → ∃ p, Equivalent p (k2.sub k1) ∧
          h.get inner pop temps adaptive k1 j = .ok (F.answer pop temps adaptive (k2.sub k1) p) := by
  obtain ⟨table, ht, hat⟩ := C166_polar zero size nb hs (List.range P.numPoints)
    (fun iq3 => do
      let q3 ← P.getPointCoordinates iq3
      let ev3 ← (bandsOf P).getEigenvectors iq3
      part1 q3 ev3)
    (by
      intro i hi
      rw [List.mem_range] at hi
      obtain ⟨p, hp⟩ := hco i hi
      refine ⟨F.polar p, ?_, hnb p⟩
      rw [hp, Outcome.bind_eq]
      show ((bandsOf P).getEigenvectors i >>= fun ev3 => _) = _
      rw [hF.vectors i p (by rw [hpts]; exact hi) (by rw [hpts]; exact hp), Outcome.bind_eq]
      exact hpol p) (by simpa using hfit) (by simpa using hint) (by simpa using hbig)
  refine ⟨.stored (bandsOf P) table, ?_, fun _ _ _ _ => rfl, ?_⟩
  · unfold ElHelper.make
    rw [if_pos ⟨rfl, rfl⟩]
    have key : ∀ X : Outcome Points, X = .ok P → (X >>= fun P => polarTable zero size nb (List.range P.numPoints)
        (fun iq3 => do
          let q3 ← P.getPointCoordinates iq3
          let ev3 ← (bandsOf P).getEigenvectors iq3
          part1 q3 ev3) >>= fun table => Outcome.ok (ElHelper.stored (bandsOf P) table)) =
        .ok (.stored (bandsOf P) table) := by
      rintro X rfl
      show (polarTable zero size nb (List.range P.numPoints) _ >>= fun table => _) = _
      rw [ht]
      rfl
    cases window with
    | false => exact key _ hP
    | true => exact key _ hP
  · intro inner pop temps adaptive k1 k2 j hj ⟨k, p, hf, hk, hp, he⟩
    refine ⟨p, he, ?_⟩
    have hk' : k < (bandsOf P).points.numPoints := by rw [hpts]; exact hk
    have hp' : (bandsOf P).points.getPointCoordinates k = .ok p := by rw [hpts]; exact hp
    have hpo := (hat k).1 (List.mem_range.mpr hk)
    rw [hp, Outcome.bind_eq] at hpo
    have hpo' : polarAt table k = .ok (F.polar p) := by
      rw [hpo]
      show ((bandsOf P).getEigenvectors k >>= fun ev3 => _) = _
      rw [hF.vectors k p hk' hp', Outcome.bind_eq]
      exact hpol p
    unfold ElHelper.get
    rw [hj, Outcome.bind_eq]
    show ((bandsOf P).points.getIndex (k2.sub k1) >>= fun iq3 => _) = _
    unfold elThird at hf
    rw [hpts, hf, Outcome.bind_eq]
    show ((bandsOf P).getEnergies k >>= fun energies3 => _) = _
    rw [hF.energies k p hk' hp', Outcome.bind_eq]
    show ((bandsOf P).getEigenvectors k >>= fun eigenVectors3 => _) = _
    rw [hF.vectors k p hk' hp', Outcome.bind_eq]
    cases adaptive with
    | false =>
      show (polarAt table k >>= fun polar => _) = _
      rw [hpo', Outcome.bind_eq]
      rfl
    | true =>
      show (((bandsOf P).getGroupVelocities k >>= fun v => Outcome.ok (some v)) >>= fun v3s => _) = _
      rw [hF.velocities k p hk' hp']
      show (polarAt table k >>= fun polar => _) = _
      rw [hpo', Outcome.bind_eq]
      rfl

/-- Same band structure on both sides, Gamma-centred mesh, no window.  For every number of processes, all pairs of
points of the mesh: the answer is made of the phonons at a point equal to `k2 - k1` up to a reciprocal lattice vector,
including polar data and populations; `prepare` changes nothing. -/
theorem C166_mesh (zero : γ) (mesh : V3 Int) (hm : PosMesh mesh) (full : Points)
    (hfull : setMesh mesh ⟨0, 0, 0⟩ = .ok full) (active : Outcome Points) (size nb : Nat) (hs : 0 < size)
    (bandsOf : Points → StoredPhonons α υ ω) (part1 : V3 Rat → υ → Outcome (List γ)) (F : PhononField α γ υ ω)
    (hpts : (bandsOf full).points = full) (hF : Holds (bandsOf full) F)
    (hpol : ∀ p, part1 p (F.vectors p) = .ok (F.polar p)) (hnb : ∀ p, (F.polar p).length = nb)
    (hfit : full.numPoints * size < sizeTMod) (hint : (full.numPoints : Int) ≤ intMax)
    (hbig : ((nb * full.numPoints : Nat) : Int) ≤ intMax) :
    ∃ h, ElHelper.make zero true ⟨0, 0, 0⟩ false size nb full active bandsOf part1 = .ok h ∧
      (∀ inner compute k1 l, h.prepare inner compute k1 l = .ok h) ∧
      ∀ pop temps adaptive (i j : Nat), i < full.numPoints → j < full.numPoints → ∃ k1 k2 p,
        full.getPointCoordinates i = .ok k1 ∧ full.getPointCoordinates j = .ok k2 ∧ Equivalent p (thirdOf k2 k1 false) ∧
        h.get full pop temps adaptive k1 j = .ok (F.answer pop temps adaptive (thirdOf k2 k1 false) p) := by
  obtain ⟨h, h1, h2, h3⟩ := C166_stored zero false size nb hs full full active rfl bandsOf part1 F hpts hF hpol hnb
    (fun i _ => ⟨_, full_coordinates hm hfull i⟩) hfit hint hbig
  refine ⟨h, h1, h2, fun pop temps adaptive i j hi hj => ?_⟩
  obtain ⟨t, e1, e2, e3, e4, e5, e6⟩ := setMesh_pos hm
  rw [hfull] at e1; cases e1
  have hpos : 0 ≤ mesh.x * mesh.y * mesh.z :=
    Int.le_of_lt (Int.mul_pos (Int.mul_pos hm.1 hm.2.1) hm.2.2)
  have ci := commensurate_mesh hm (i : Int) (by omega)
  have cj := commensurate_mesh hm (j : Int) (by omega)
  have cs := commensurate_sub cj ci
  obtain ⟨m1, m2, m3⟩ := meshIndex_spec hm cs
  obtain ⟨p, hp1, hp2⟩ := h3 full pop temps adaptive (meshCoordinates mesh ⟨0, 0, 0⟩ i) _ j
    (full_coordinates hm hfull j)
    ⟨meshIndex mesh _, _, full_getIndex hm hfull cs, by omega, full_coordinates hm hfull _, equivalent_symm m3⟩
  exact ⟨_, _, p, full_coordinates hm hfull i, full_coordinates hm hfull j, hp1, hp2⟩

/-- A band structure over given points for the examples: energies, eigenvectors and velocities are coordinates. -/
def toyPhonons (P : Points) : StoredPhonons Rat Rat Rat :=
  { points := P
    getEnergies := fun i => do let p ← P.getPointCoordinates i; .ok [p.x, p.y]
    getEigenvectors := fun i => do let p ← P.getPointCoordinates i; .ok (p.x + 1)
    getGroupVelocities := fun i => do let p ← P.getPointCoordinates i; .ok (p.x + 2) }

def toyField : PhononField Rat Rat Rat Rat :=
  ⟨fun p => [p.x, p.y], fun p => p.x + 1, fun p => p.x + 2, fun p => [p.x, p.x + 1]⟩

example (P : Points) : Holds (toyPhonons P) toyField := by
  constructor <;> intro i p _ h <;> simp only [toyPhonons] at h ⊢ <;> rw [h] <;> rfl

example (p : V3 Rat) : (fun (q : V3 Rat) (u : Rat) => Outcome.ok [q.x, u]) p (toyField.vectors p) =
    .ok (toyField.polar p) := rfl

/-- On a 4x1x1 mesh and three processes: `k1 = 3/4` and `k2 = 1/4`, the phonon is at `-1/2`, stored as `1/2`. -/
example : (do
    let full ← setMesh ⟨4, 1, 1⟩ ⟨0, 0, 0⟩
    let h ← ElHelper.make 0 true ⟨0, 0, 0⟩ false 3 2 full .error toyPhonons (fun q u => .ok [q.x, u])
    h.get full (fun e t => e * t) [1, 2] true ⟨3 / 4, 0, 0⟩ 1) =
    .ok (toyField.answer (fun e t => e * t) [1, 2] true ⟨-1 / 2, 0, 0⟩ ⟨1 / 2, 0, 0⟩) := by decide +kernel

/-- Same band structure on both sides, Gamma-centred mesh, window: as in `C58_electrons_partial`, the stored points are
those reached from the selected ones.  For every number of processes and every execution of the parallel region, on
every process and for all pairs of selected points: the answer is made of the phonons at a point equal to `k2 - k1` up
to a reciprocal lattice vector.  Missing with respect to C166: meshes with 1000 points or more along a direction. -/
theorem C166_window_partial (zero : γ) (mesh : V3 Int) (hm : PosMesh mesh) (hc : CoarseMesh mesh) (full inner : Points)
    (hfull : setMesh mesh ⟨0, 0, 0⟩ = .ok full) (filter : List Int)
    (hr : ∀ i ∈ filter, 0 ≤ i ∧ i < mesh.x * mesh.y * mesh.z) (hinner : full.setActiveLayer filter = .ok inner)
    (rots : Nat → List M3) (hid : ∀ i < inner.numPoints, M3.one ∈ rots i)
    (hmap : ∀ i < inner.numPoints, ∀ R ∈ rots i, ∀ k, inner.getPointCoordinates i = .ok k →
      ∃ j, (0 ≤ j ∧ j < mesh.x * mesh.y * mesh.z) ∧ Equivalent (R.mulVec k) (meshCoordinates mesh ⟨0, 0, 0⟩ j))
    (size : Nat) (hs : 0 < size) (hfit : inner.numPoints * size < sizeTMod)
    (mine : List (List Nat)) (hlen : mine.length = size)
    (hrun : ∀ r (hr : r < mine.length), ∃ work, divideWorkIter inner.numPoints r size = .ok work ∧
      RegionRun full (elThirdVectors inner rots) inner.numPoints work mine[r]) :
    ∃ P, thirdPoints full mine = .ok (List.replicate size P) ∧
      ∀ (rank nb : Nat), rank < size → ∀ (bandsOf : Points → StoredPhonons α υ ω)
        (part1 : V3 Rat → υ → Outcome (List γ)) (F : PhononField α γ υ ω), (bandsOf P).points = P → Holds (bandsOf P) F →
        (∀ p, part1 p (F.vectors p) = .ok (F.polar p)) → (∀ p, (F.polar p).length = nb) →
        P.numPoints * size < sizeTMod → (P.numPoints : Int) ≤ intMax → ((nb * P.numPoints : Nat) : Int) ≤ intMax →
        ∃ h, ElHelper.make zero true ⟨0, 0, 0⟩ true size nb full
            (thirdPoints full mine >>= fun l => readAt l rank) bandsOf part1 = .ok h ∧
          (∀ inner compute k1 l, h.prepare inner compute k1 l = .ok h) ∧
          ∀ pop temps adaptive (i j : Nat), i < inner.numPoints → j < inner.numPoints → ∃ k1 k2 p,
            inner.getPointCoordinates i = .ok k1 ∧ inner.getPointCoordinates j = .ok k2 ∧
            Equivalent p (thirdOf k2 k1 false) ∧
            h.get inner pop temps adaptive k1 j = .ok (F.answer pop temps adaptive (thirdOf k2 k1 false) p) := by
  obtain ⟨P, hP, hfound⟩ := C58_electrons_partial mesh hm hc full inner hfull filter hr hinner rots hid hmap size hs hfit
    mine hlen hrun
  refine ⟨P, hP, ?_⟩
  intro rank nb hrank bandsOf part1 F hpts hF hpol hnb hfit' hint hbig
  have hco : ∀ i < P.numPoints, ∃ p, P.getPointCoordinates (i : Int) = .ok p := by
    unfold thirdPoints at hP
    obtain ⟨all, _, hmo⟩ := (Outcome.bind_eq_ok_iff _ _ _).mp hP
    obtain ⟨f, hf⟩ := mapOutcome_first hs hmo
    exact fun i hi => active_coordinates (full_not_stored hm hfull) hf i hi
  have hact : (if true = true then (thirdPoints full mine >>= fun l => readAt l rank) else .ok full) = .ok P := by
    rw [if_pos rfl, hP]
    show readAt _ _ = _
    unfold readAt
    rw [List.getElem?_replicate, if_pos hrank]
  obtain ⟨h, h1, h2, h3⟩ := C166_stored zero true size nb hs full P _ hact bandsOf part1 F hpts hF hpol hnb hco hfit' hint
    hbig
  refine ⟨h, h1, h2, fun pop temps adaptive i j hi hj => ?_⟩
  obtain ⟨k1, k2, e1, e2, e3⟩ := hfound i j hi hj
  obtain ⟨p, hp1, hp2⟩ := h3 inner pop temps adaptive k1 k2 j e2 e3
  exact ⟨k1, k2, p, e1, e2, hp1, hp2⟩

/-- Two band structures, or a mesh that is not Gamma-centred: after `prepare` on a list of consecutive wavevectors, the
answer for each of them is made of the phonons at `k2 - k1` itself.  Missing with respect to C166: other lists, for
which it fails (`C166_violated_gap`, `C166_violated_empty`). -/
theorem C166_computed_partial (zero : γ) (same : Bool) (offset : V3 Rat) (hno : same = false ∨ offset ≠ ⟨0, 0, 0⟩)
    (window : Bool) (size nb : Nat) (full : Points) (active : Outcome Points) (bandsOf : Points → StoredPhonons α υ ω)
    (part1 : V3 Rat → υ → Outcome (List γ)) (F : PhononField α γ υ ω)
    (hpol : ∀ p, part1 p (F.vectors p) = .ok (F.polar p)) (inner : Points) (pop : α → α → α) (temps : List α)
    (adaptive : Bool) (k1 : V3 Rat) (first : Int) (n : Nat) (hn : 0 < n) (k2 : Nat → V3 Rat)
    (hk2 : ∀ k < n, inner.getPointCoordinates (first + (k : Int)) = .ok (k2 k)) :
    ∃ h h', ElHelper.make zero same offset window size nb full active bandsOf part1 = .ok h ∧
      h.prepare inner (computePhonon pop temps adaptive (fun q => (F.energies q, F.vectors q)) F.velocities part1) k1
        ((List.range n).map fun k : Nat => first + (k : Int)) = .ok h' ∧
      ∀ k < n, h'.get inner pop temps adaptive k1 (first + (k : Int)) =
        .ok (F.answer pop temps adaptive (thirdOf (k2 k) k1 false) (thirdOf (k2 k) k1 false)) := by
  have hcomp : ∀ q, computePhonon pop temps adaptive (fun q => (F.energies q, F.vectors q)) F.velocities part1 q =
      .ok (F.answer pop temps adaptive q q) := by
    intro q
    unfold computePhonon
    simp only
    rw [hpol, Outcome.bind_eq]
    rfl
  have hmap : mapOutcome (fun ik2 => inner.getPointCoordinates ik2 >>= fun k2 =>
      computePhonon pop temps adaptive (fun q => (F.energies q, F.vectors q)) F.velocities part1 (k2.sub k1))
      ((List.range n).map fun k : Nat => first + (k : Int)) =
      .ok ((List.range n).map fun k => F.answer pop temps adaptive ((k2 k).sub k1) ((k2 k).sub k1)) := by
    rw [mapOutcome_eq_map (g := fun i => F.answer pop temps adaptive ((k2 (i - first).toNat).sub k1)
      ((k2 (i - first).toNat).sub k1))]
    · rw [List.map_map]
      congr 1
      apply List.map_congr_left
      intro k _
      simp
    · intro i hi
      obtain ⟨k, hk, rfl⟩ := List.mem_map.mp hi
      rw [hk2 k (List.mem_range.mp hk), Outcome.bind_eq]
      refine (hcomp _).trans ?_
      simp
  refine ⟨.computed none, .computed (some ⟨first, (List.range n).map fun k =>
    F.answer pop temps adaptive ((k2 k).sub k1) ((k2 k).sub k1)⟩), ?_, ?_, ?_⟩
  · unfold ElHelper.make
    rw [if_neg]
    rintro ⟨h1, h2⟩
    rcases hno with h | h
    · rw [h] at h1; cases h1
    · exact h h2
  · obtain ⟨m, rfl⟩ : ∃ m, n = m + 1 := ⟨n - 1, by omega⟩
    have hl : (List.range (m + 1)).map (fun k : Nat => first + (k : Int)) =
        first :: (List.range m).map (fun k : Nat => first + ((k + 1 : Nat) : Int)) := by
      rw [List.range_succ_eq_map, List.map_cons, List.map_map]
      simp [Function.comp_def]
    rw [hl] at hmap ⊢
    unfold ElHelper.prepare
    simp only
    rw [hmap, Outcome.bind_eq]
    rfl
  · intro k hk
    unfold ElHelper.get
    rw [hk2 k hk, Outcome.bind_eq]
    show (ThirdCache.get _ _ >>= fun e => _) = _
    unfold ThirdCache.get
    simp only
    rw [if_neg (by omega), show (first + (k : Int) - first).toNat = k by omega, List.getElem?_map,
      List.getElem?_range hk]
    rfl

example : (do
    let inner ← setMesh ⟨4, 1, 1⟩ ⟨0, 0, 0⟩
    let h ← ElHelper.make 0 false ⟨0, 0, 0⟩ false 3 2 inner .error toyPhonons (fun q u => .ok [q.x, u])
    let h ← h.prepare inner (computePhonon (fun e t => e * t) [1, 2] false
      (fun q => (toyField.energies q, toyField.vectors q)) toyField.velocities (fun q u => .ok [q.x, u])) ⟨1 / 8, 0, 0⟩ [1, 2, 3]
    h.get inner (fun e t => e * t) [1, 2] false ⟨1 / 8, 0, 0⟩ 2) =
    .ok (toyField.answer (fun e t => e * t) [1, 2] false ⟨3 / 8, 0, 0⟩ ⟨3 / 8, 0, 0⟩) := by decide +kernel

/-- C166 is violated for a list with gaps: after preparing wavevectors 0 and 2, asking for wavevector 2 reads outside of
the cache. -/
theorem C166_violated_gap (pop : α → α → α) (temps : List α) (adaptive : Bool) (inner : Points) (k1 c0 c2 : V3 Rat)
    (h0 : inner.getPointCoordinates 0 = .ok c0) (h2 : inner.getPointCoordinates 2 = .ok c2)
    (e0 e2 : PhononOf α γ υ ω) (compute : V3 Rat → Outcome (PhononOf α γ υ ω))
    (hc0 : compute (c0.sub k1) = .ok e0) (hc2 : compute (c2.sub k1) = .ok e2) :
    ∃ h : ElHelper α γ υ ω, (ElHelper.computed none).prepare inner compute k1 [0, 2] = .ok h ∧
      h.get inner pop temps adaptive k1 2 = .ub := by
  refine ⟨.computed (some ⟨0, [e0, e2]⟩), ?_, ?_⟩
  · simp [ElHelper.prepare, mapOutcome, Outcome.bind_eq, Outcome.bind, h0, h2, hc0, hc2]
  · simp [ElHelper.get, ThirdCache.get, Outcome.bind_eq, Outcome.bind, h2]

/-- C166: a process without wavevectors reads the first element of an empty list. -/
theorem C166_violated_empty (inner : Points) (k1 : V3 Rat) (compute : V3 Rat → Outcome (PhononOf α γ υ ω)) :
    (ElHelper.computed none).prepare inner compute k1 [] = .ub := rfl

end Verif.Props
