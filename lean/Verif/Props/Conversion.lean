import Verif.Proofs.Conversion
import Verif.Props.CrystalClasses
import Verif.Props.CouplingFile
import Verif.Props.RotationFile

/-!
# C190: from the files of Quantum ESPRESSO and Wannier90 to the interpolated coupling
-/
namespace Verif.Props
open Verif.Model Verif.Spec
open scoped Matrix

/-- A sum of wavevectors is in a mesh, if the second is of a coarser mesh. -/
theorem near_sum {a b k q : Nat} (ha : 0 < a) (hb : 0 < b) (h : b ∣ a) :
    NearMod (1 / 10000000000) ((k : Rat) / a + (q : Rat) / b) (((k + q * (a / b)) % a : ℕ) / a) := by
  obtain ⟨t, rfl⟩ := h
  refine ⟨((k + q * (b * t / b)) / (b * t) : ℕ), ?_⟩
  rw [Nat.mul_div_cancel_left _ hb]
  have ht : 0 < t := Nat.pos_of_mul_pos_left ha
  have hb' : (b : Rat) ≠ 0 := by exact_mod_cast hb.ne'
  have ht' : (t : Rat) ≠ 0 := by exact_mod_cast ht.ne'
  have e : ((b * t : ℕ) : Rat) * (((k + q * t) / (b * t) : ℕ) : Rat) + (((k + q * t) % (b * t) : ℕ) : Rat) = ((k + q * t : ℕ) : Rat) := by
    exact_mod_cast Nat.div_add_mod (k + q * t) (b * t)
  have : (k : Rat) / ((b * t : ℕ) : Rat) + (q : Rat) / b - (((k + q * t) % (b * t) : ℕ) : Rat) / ((b * t : ℕ) : Rat) -
      ((((k + q * t) / (b * t) : ℕ) : Int) : Rat) = 0 := by
    generalize (k + q * t) / (b * t) = w at e ⊢
    generalize (k + q * t) % (b * t) = r at e ⊢
    push_cast at e ⊢
    field_simp
    linarith
  rw [this]
  norm_num

theorem sum_exists (nk nq : Fin 3 → Nat) (hk : ∀ i, 0 < nk i) (hq : ∀ i, 0 < nq i) (h : ∀ i, nq i ∣ nk i) (k : KGrid nk) (q : KGrid nq) :
    ∃ k', IsPoint nk (sumCoordinates nk nq k q) k' :=
  ⟨fun i => ⟨(k i + q i * (nk i / nq i)) % nk i, Nat.mod_lt _ (hk i)⟩, near_sum (hk 0) (hq 0) (h 0), near_sum (hk 1) (hq 1) (h 1),
    near_sum (hk 2) (hq 2) (h 2)⟩

theorem ofFn_getD (l : List Nat) (m : Nat) (h : l.length = m) : (List.ofFn fun r : Fin m => l.getD r 0) = l := by
  subst h
  apply List.ext_getElem
  · simp
  · intro i h1 h2
    simp

/-- What the program has found of an outcome. -/
def foundIndex {α : Type} (d : α) : Outcome α → α
  | .ok i => i
  | _ => d

/-- The conversion when `first` is the offset of the bands that the program finds. -/
theorem conversion_offset (x : ConversionInput) (hk : ∀ i, 0 < x.nk i) (hq : ∀ i, 0 < x.nq i) (s : ConversionShares x.nk x.nq)
    (hdb : DualCells x.d x.b) (hck : CompactGrid x.d (meshVector x.nk)) (hcq : CompactGrid x.d (meshVector x.nq))
    (hsk : ∀ i, x.nk i ≤ 1000) (hsq : ∀ i, x.nq i ≤ 1000) (hsub : ∀ i, x.nq i ∣ x.nk i)
    -- how the work is shared
    (horder : ∀ l, (s.order l).Perm l) (B : Nat) (hw : ∀ k q, Worksharing (s.threads x.numModes B B k q))
    (ha : ∀ k q, Aligned (s.threads x.numModes B B k q))
    (hksh : s.kShares.flatten.Perm (gridList x.nk hk)) (hqsh : s.qShares.flatten.Perm (gridList x.nq hq))
    (hesh : ∀ E, (s.eShares E).flatten.Perm (List.finRange E))
    -- the files of Wannier90
    (hpre : x.wannierPrefix ≠ "") (title : List FileWord) (ks : List (V3 Rat)) (posU : Nat → KGrid x.nk)
    (hposU : ListsGrid x.nk ks posU) (u : KGrid x.nk → Nat → Nat → Rat × Rat)
    (huf : x.uFile = some (rotationFile title B B ks fun w => u (posU w))) (hdf : x.disFile = none) (hnw : x.numWannier = B)
    -- the files of Quantum ESPRESSO
    (N first : Nat) (hN : first + B ≤ N) (hnb : x.numQEBands = N)
    (hoff : computeOffset x.energies x.wannierEnergies = .ok first) (posK : Nat → KGrid x.nk)
    (hposK : ListsGrid x.nk x.kGridFull posK) (stars : List StarContent) (hgood : ∀ c ∈ stars, c.Good x.numModes)
    (hst : x.starFiles = stars.map fun c => c.file x.numModes (x.nk 0 * x.nk 1 * x.nk 2) N) (posQ : Nat → Nat → KGrid x.nq)
    (hposQ : StarsGrid x.nq stars posQ) :
    ∃ (E P : Nat) (data : ElPhData E P x.numModes B), convertCoupling x hk hq s = .ok ⟨E, P, B, data⟩ ∧
      ∀ (shares : List (List (Fin E))) (_ : shares.flatten.Perm (List.finRange E)) (asked : Nat → Vec3 × (Fin B → Nat → ℂ)) (own : Nat)
        (garbage : Nat → ℂ) (ik : Nat) (_ : ik < x.kGridFull.length) (a : Nat) (ha : a < stars.length) (iq : Nat)
        (_ : iq < stars[a].crystal.length) (k' : KGrid x.nk) (_ : IsPoint x.nk (sumOfPoints x.nk x.nq (posK ik) (posQ a iq)) k')
        (item : CouplingItem x.numModes B) (_ : (asked own).1 = matVec x.b fun i => ((posK ik i : ℕ) : ℝ) / x.nk i)
        (_ : item.q = matVec x.b fun i => ((posQ a iq i : ℕ) : ℝ) / x.nq i) (b1 b2 : Nat) (_ : b2 < item.nb2) (nu : Fin x.numModes),
        (calcCouplingSquared data false (cacheElPh data shares asked own) (asked own).2 garbage [item])[0]?.map (fun g => g b1 b2 nu) =
          some (Complex.normSq (∑ l : Fin B, ∑ m : Fin B, ∑ nu' : Fin x.numModes,
            (starRingEnd ℂ) (stateOf (fun (l w : Fin B) => complexOf (u k' l w)) (fun w => item.ev2 w b2) l) *
            stars[a].coupling iq nu' ik (first + m) (first + l) *
            stateOf (fun (l w : Fin B) => complexOf (u (posK ik) l w)) (fun w => (asked own).2 w b1) m *
            ((Matrix.of fun mu nu : Fin x.numModes => stars[a].eigenvector iq nu mu)⁻¹ *ᵥ fun mu => item.ev3 mu nu) nu')) := by
  obtain ⟨kp, hkp⟩ := gridPoints_ok x.nk hk
  obtain ⟨qp, hqp⟩ := gridPoints_ok x.nq hq
  have hmesh := listsGrid_mesh hk hsk kp hkp ks posU hposU
  obtain ⟨⟨rows, cols, depth, entry⟩, ht, r1, r2, r3, r4⟩ := (C188_rotation x.wannierPrefix hpre title title kp B B ks ks
    (fun w => u (posU w)) (fun w => u (posU w)) _ _ hmesh hmesh rfl).1
  simp only at r1 r2 r3 r4
  subst r1
  subst r2
  obtain ⟨lsE, hE, _⟩ := C70_classes x.d (meshVector x.nk) ⟨by simpa [meshVector] using hk 0, by simpa [meshVector] using hk 1,
    by simpa [meshVector] using hk 2⟩ 2 (by norm_num) hck
  obtain ⟨lsP, hP, _⟩ := C70_classes x.d (meshVector x.nq) ⟨by simpa [meshVector] using hq 0, by simpa [meshVector] using hq 1,
    by simpa [meshVector] using hq 2⟩ 2 (by norm_num) hcq
  generalize hvE : (lsE.map fun q => x.d *ᵥ ![(q.1.x : ℝ), (q.1.y : ℝ), (q.1.z : ℝ)]) = vE at hE
  generalize hvP : (lsP.map fun q => x.d *ᵥ ![(q.1.x : ℝ), (q.1.y : ℝ), (q.1.z : ℝ)]) = vP at hP
  generalize hgE : lsE.map Prod.snd = gE at hE
  generalize hgP : lsP.map Prod.snd = gP at hP
  have hlE : gE.length = vE.length := by rw [← hgE, ← hvE]; simp
  have hlP : gP.length = vP.length := by rw [← hgP, ← hvP]; simp
  -- the numbers of the wavevectors of Quantum ESPRESSO
  have hik : mapOutcome kp.getIndex x.kGridFull = .ok (x.kGridFull.map fun p => foundIndex 0 (kp.getIndex p)) := by
    apply mapOutcome_eq_map
    intro p hp
    obtain ⟨w, hw', rfl⟩ := List.mem_iff_getElem.mp hp
    have := hposK.1 w hw'
    rw [getD_of_lt _ _ hw'] at this
    rw [getIndex_near hk hsk kp hkp _ _ this]
    rfl
  have hikv : ∀ i < x.kGridFull.length, (((x.kGridFull.map fun p => foundIndex 0 (kp.getIndex p)).getD i 0).toNat) = gridNumber x.nk (posK i) := by
    intro i hi
    rw [getD_of_lt _ _ (by simpa using hi), List.getElem_map]
    have := hposK.1 i hi
    rw [getD_of_lt _ _ hi] at this
    rw [getIndex_near hk hsk kp hkp _ _ this]
    simp [foundIndex]
  have hnumK := listsGrid_length _ _ hposK
  -- the coupling
  have hqi : ∀ a (ha : a < stars.length) i (hi : i < stars[a].crystal.length),
      rationalIndex qp stars[a].crystal[i] = .ok (gridNumber x.nq (posQ a i)) := by
    intro a ha i hi
    obtain ⟨p, hp, hpt⟩ := hposQ.1 a ha i hi
    rw [hp]
    exact rationalIndex_near hq hsq qp hqp p _ hpt
  obtain ⟨A, hA, hAv⟩ := C186_mesh x.numModes (x.nk 0 * x.nk 1 * x.nk 2) N cols first hN
    (fun ik => ((x.kGridFull.map fun p => foundIndex 0 (kp.getIndex p)).getD ik 0).toNat)
    (by
      intro i hi
      rw [hikv i (by omega)]
      exact gridNumber_lt _ _)
    (by
      intro i hi j hj hij
      rw [hikv i (by omega), hikv j (by omega)] at hij
      have := gridNumber_inj _ hk hij
      obtain ⟨w, _, hun⟩ := hposK.2 (posK i)
      exact (hun i ⟨by omega, rfl⟩).trans (hun j ⟨by omega, this.symm⟩).symm)
    stars hgood (rationalIndex qp) (fun v => foundIndex 0 (rationalIndex qp v))
    (by
      intro c hc v hv
      obtain ⟨a, ha, rfl⟩ := List.mem_iff_getElem.mp hc
      obtain ⟨i, hi, rfl⟩ := List.mem_iff_getElem.mp hv
      rw [hqi a ha i hi]
      rfl)
    (by
      intro a ha b hb i hi j hj h
      rw [hqi a ha i hi, hqi b hb j hj] at h
      exact hposQ.2.2 a ha i hi b hb j hj (gridNumber_inj _ hq h))
    s.order horder
  -- the sums of wavevectors
  choose sum hsum using sum_exists x.nk x.nq hk hq hsub
  have hsums : mapOutcome (fun q => mapOutcome (fun k => kp.getIndex (sumCoordinates x.nk x.nq k q)) (gridList x.nk hk)) (gridList x.nq hq) =
      .ok ((gridList x.nq hq).map fun q => (gridList x.nk hk).map fun k => (gridNumber x.nk (sum k q) : Int)) := by
    apply mapOutcome_eq_map
    intro q _
    apply mapOutcome_eq_map
    intro k _
    exact getIndex_near hk hsk kp hkp _ _ (hsum k q)
  let c := assembleCoarse x hk hq ⟨cols, cols, depth, entry⟩ A vE vP
    ((gridList x.nq hq).map fun q => (gridList x.nk hk).map fun k => (gridNumber x.nk (sum k q) : Int))
  refine ⟨vE.length, vP.length, coarseElPhData c (fun r => (gE.getD r 0 : ℝ)) (fun r => (gP.getD r 0 : ℝ))
    (blochToWannier c (s.threads _ _ _) s.kShares s.qShares (s.eShares _)), ?_, ?_⟩
  · unfold convertCoupling
    simp only [Outcome.bind_eq]
    unfold meshVector at hE hP
    rw [hkp, Outcome.bind_ok, hqp, Outcome.bind_ok, huf, hdf, ht, Outcome.bind_ok, hoff, Outcome.bind_ok, hE, Outcome.bind_ok, hP,
      Outcome.bind_ok, hik, Outcome.bind_ok, hst, hnb, hnw, hA, Outcome.bind_ok, hsums, Outcome.bind_ok]
  · intro shares hshares asked own garbage ik hikl a ha' iq hiq k' hk' item h1 h3 b1 b2 hb2 nu
    have key := C141_lattice_partial x.d x.b hdb x.nk x.nq hk hq c (gridList_once _ _) (gridList_once _ _) (fun _ => rfl) (fun _ => rfl)
      hck hcq (fun r => gE.getD r 0) (fun r => gP.getD r 0)
      (by rw [ofFn_getD gE _ hlE]; rw [hE]; congr 2; exact (List.ofFn_get vE).symm)
      (by rw [ofFn_getD gP _ hlP]; rw [hP]; congr 2; exact (List.ofFn_get vP).symm)
      (s.threads _ _ _) hw ha s.kShares s.qShares (s.eShares _) hksh hqsh (hesh _) shares hshares asked own garbage
      (posK ik) (posQ a iq) item h1 h3 b1 b2 hb2 nu
    have hu : ∀ k (l w : Fin cols), c.u k l w = complexOf (u k l w) := by
      intro k l w
      obtain ⟨v, ⟨hv, hvk⟩, _⟩ := hposU.2 k
      have := r4 v l w hv l.2 w.2
      rw [hvk] at this
      exact this
    have hkq : c.kPlusQ (posK ik) (posQ a iq) = k' := by
      have h : c.kPlusQ (posK ik) (posQ a iq) = gridOf x.nk hk ((((gridList x.nq hq).map fun q => (gridList x.nk hk).map fun k =>
        (gridNumber x.nk (sum k q) : Int)).getD (gridNumber x.nq (posQ a iq)) []).getD (gridNumber x.nk (posK ik)) 0).toNat := rfl
      have h2 : ((gridList x.nq hq).map fun q => (gridList x.nk hk).map fun k => (gridNumber x.nk (sum k q) : Int)).getD
          (gridNumber x.nq (posQ a iq)) [] = (gridList x.nk hk).map fun k => (gridNumber x.nk (sum k (posQ a iq)) : Int) := by
        rw [List.getD_eq_getElem?_getD, List.getElem?_map, gridList_get, Option.map_some, Option.getD_some]
      rw [h, h2, List.getD_eq_getElem?_getD, List.getElem?_map, gridList_get, Option.map_some, Option.getD_some, Int.toNat_natCast, gridOf_number]
      have e1 := getIndex_near hk hsk kp hkp _ _ (hsum (posK ik) (posQ a iq))
      have e2 : kp.getIndex (sumCoordinates x.nk x.nq (posK ik) (posQ a iq)) = _ := getIndex_near hk hsk kp hkp _ _ hk'
      rw [e2] at e1
      injection e1 with e1
      exact (gridNumber_inj _ hk (by exact_mod_cast e1)).symm
    have hindex : foundIndex 0 (rationalIndex qp stars[a].crystal[iq]) = gridNumber x.nq (posQ a iq) := by
      rw [hqi a ha' iq hiq]; rfl
    have hg : ∀ (l m : Fin cols) (nu' : Fin x.numModes), c.g l m nu' (posK ik) (posQ a iq) = stars[a].coupling iq nu' ik (first + m) (first + l) := by
      intro l m nu'
      have := (hAv a ha' iq hiq nu' nu'.2).1 ik (by omega) m m.2 l l.2
      rw [hindex, hikv ik hikl] at this
      exact this
    have hev : c.phEig (posQ a iq) = Matrix.of fun mu nu : Fin x.numModes => stars[a].eigenvector iq nu mu := by
      ext mu nu'
      have := (hAv a ha' iq hiq nu' nu'.2).2.1 mu mu.2
      rw [hindex] at this
      exact this
    have hu' : ∀ k, c.u k = fun (l w : Fin cols) => complexOf (u k l w) := fun k => by funext l w; exact hu k l w
    refine key.trans ?_
    simp only [hkq, hu', hg, hev]

/-- C190 (partial): the conversion of complete files, and the interpolation of its result.  The files of Wannier90 and Quantum
ESPRESSO have the wavevectors of the two meshes in any order and written with ten decimals; Wannier90 was given all the bands.
Then the program writes its file, and the interpolation at wavevectors `k` and `q` of the meshes gives the squared matrix element
of the coupling in the files of Quantum ESPRESSO, between the states that the eigenvectors stand for, at the wavevectors `k` and
`k'`, equal to `k + q` up to reciprocal lattice vectors, and for the displacement asked.
Missing: bands left out (C143, C145) or disentangled (C141), the polar correction (C142), other ways to share the rotation
among threads (C140). -/
theorem C190_conversion_partial (x : ConversionInput) (hk : ∀ i, 0 < x.nk i) (hq : ∀ i, 0 < x.nq i) (s : ConversionShares x.nk x.nq)
    (hdb : DualCells x.d x.b) (hck : CompactGrid x.d (meshVector x.nk)) (hcq : CompactGrid x.d (meshVector x.nq))
    (hsk : ∀ i, x.nk i ≤ 1000) (hsq : ∀ i, x.nq i ≤ 1000) (hsub : ∀ i, x.nq i ∣ x.nk i)
    -- how the work is shared
    (horder : ∀ l, (s.order l).Perm l) (B : Nat) (hw : ∀ k q, Worksharing (s.threads x.numModes B B k q))
    (ha : ∀ k q, Aligned (s.threads x.numModes B B k q))
    (hksh : s.kShares.flatten.Perm (gridList x.nk hk)) (hqsh : s.qShares.flatten.Perm (gridList x.nq hq))
    (hesh : ∀ E, (s.eShares E).flatten.Perm (List.finRange E))
    -- the files of Wannier90
    (hpre : x.wannierPrefix ≠ "") (title : List FileWord) (ks : List (V3 Rat)) (posU : Nat → KGrid x.nk)
    (hposU : ListsGrid x.nk ks posU) (u : KGrid x.nk → Nat → Nat → Rat × Rat)
    (huf : x.uFile = some (rotationFile title B B ks fun w => u (posU w))) (hdf : x.disFile = none) (hnw : x.numWannier = B)
    -- the files of Quantum ESPRESSO
    (hnb : x.numQEBands = B) (hen : x.energies.length = x.wannierEnergies.length) (posK : Nat → KGrid x.nk)
    (hposK : ListsGrid x.nk x.kGridFull posK) (stars : List StarContent) (hgood : ∀ c ∈ stars, c.Good x.numModes)
    (hst : x.starFiles = stars.map fun c => c.file x.numModes (x.nk 0 * x.nk 1 * x.nk 2) B) (posQ : Nat → Nat → KGrid x.nq)
    (hposQ : StarsGrid x.nq stars posQ) :
    ∃ (E P : Nat) (data : ElPhData E P x.numModes B), convertCoupling x hk hq s = .ok ⟨E, P, B, data⟩ ∧
      ∀ (shares : List (List (Fin E))) (_ : shares.flatten.Perm (List.finRange E)) (asked : Nat → Vec3 × (Fin B → Nat → ℂ)) (own : Nat)
        (garbage : Nat → ℂ) (ik : Nat) (_ : ik < x.kGridFull.length) (a : Nat) (ha : a < stars.length) (iq : Nat)
        (_ : iq < stars[a].crystal.length) (k' : KGrid x.nk) (_ : IsPoint x.nk (sumOfPoints x.nk x.nq (posK ik) (posQ a iq)) k')
        (item : CouplingItem x.numModes B) (_ : (asked own).1 = matVec x.b fun i => ((posK ik i : ℕ) : ℝ) / x.nk i)
        (_ : item.q = matVec x.b fun i => ((posQ a iq i : ℕ) : ℝ) / x.nq i) (b1 b2 : Nat) (_ : b2 < item.nb2) (nu : Fin x.numModes),
        (calcCouplingSquared data false (cacheElPh data shares asked own) (asked own).2 garbage [item])[0]?.map (fun g => g b1 b2 nu) =
          some (Complex.normSq (∑ l : Fin B, ∑ m : Fin B, ∑ nu' : Fin x.numModes,
            (starRingEnd ℂ) (stateOf (fun (l w : Fin B) => complexOf (u k' l w)) (fun w => item.ev2 w b2) l) *
            stars[a].coupling iq nu' ik m l *
            stateOf (fun (l w : Fin B) => complexOf (u (posK ik) l w)) (fun w => (asked own).2 w b1) m *
            ((Matrix.of fun mu nu : Fin x.numModes => stars[a].eigenvector iq nu mu)⁻¹ *ᵥ fun mu => item.ev3 mu nu) nu')) := by
  have := conversion_offset x hk hq s hdb hck hcq hsk hsq hsub horder B hw ha hksh hqsh hesh hpre title ks posU hposU u huf hdf hnw B 0 (by omega) hnb ((C143_equal_partial _ _).1 hen)
    posK hposK stars hgood hst posQ hposQ
  simpa only [Nat.zero_add] using this

/-- C190 is violated when Wannier90 was given the bands from `first` on and not the last ones: the interpolation gives the
coupling of the bands from `first + 1` on. -/
theorem C190_violated_bands (x : ConversionInput) (hk : ∀ i, 0 < x.nk i) (hq : ∀ i, 0 < x.nq i) (s : ConversionShares x.nk x.nq)
    (hdb : DualCells x.d x.b) (hck : CompactGrid x.d (meshVector x.nk)) (hcq : CompactGrid x.d (meshVector x.nq))
    (hsk : ∀ i, x.nk i ≤ 1000) (hsq : ∀ i, x.nq i ≤ 1000) (hsub : ∀ i, x.nq i ∣ x.nk i)
    -- how the work is shared
    (horder : ∀ l, (s.order l).Perm l) (B : Nat) (hw : ∀ k q, Worksharing (s.threads x.numModes B B k q))
    (ha : ∀ k q, Aligned (s.threads x.numModes B B k q))
    (hksh : s.kShares.flatten.Perm (gridList x.nk hk)) (hqsh : s.qShares.flatten.Perm (gridList x.nq hq))
    (hesh : ∀ E, (s.eShares E).flatten.Perm (List.finRange E))
    -- the files of Wannier90
    (hpre : x.wannierPrefix ≠ "") (title : List FileWord) (ks : List (V3 Rat)) (posU : Nat → KGrid x.nk)
    (hposU : ListsGrid x.nk ks posU) (u : KGrid x.nk → Nat → Nat → Rat × Rat)
    (huf : x.uFile = some (rotationFile title B B ks fun w => u (posU w))) (hdf : x.disFile = none) (hnw : x.numWannier = B)
    -- the files of Quantum ESPRESSO
    (hnb : x.numQEBands = x.energies.length) (hwb : x.wannierEnergies.length = B) (first : Nat) (hlen : first + B < x.energies.length)
    (hmatch : ∀ ib, ib < B → x.wannierEnergies.getD ib 0 = x.energies.getD (first + ib) 0)
    (honly : ∀ i, i + B ≤ x.energies.length → i ≠ first → ∃ ib, ib < B ∧ x.wannierEnergies.getD ib 0 ≠ x.energies.getD (i + ib) 0)
    (posK : Nat → KGrid x.nk)
    (hposK : ListsGrid x.nk x.kGridFull posK) (stars : List StarContent) (hgood : ∀ c ∈ stars, c.Good x.numModes)
    (hst : x.starFiles = stars.map fun c => c.file x.numModes (x.nk 0 * x.nk 1 * x.nk 2) x.energies.length) (posQ : Nat → Nat → KGrid x.nq)
    (hposQ : StarsGrid x.nq stars posQ) :
    ∃ (E P : Nat) (data : ElPhData E P x.numModes B), convertCoupling x hk hq s = .ok ⟨E, P, B, data⟩ ∧
      ∀ (shares : List (List (Fin E))) (_ : shares.flatten.Perm (List.finRange E)) (asked : Nat → Vec3 × (Fin B → Nat → ℂ)) (own : Nat)
        (garbage : Nat → ℂ) (ik : Nat) (_ : ik < x.kGridFull.length) (a : Nat) (ha : a < stars.length) (iq : Nat)
        (_ : iq < stars[a].crystal.length) (k' : KGrid x.nk) (_ : IsPoint x.nk (sumOfPoints x.nk x.nq (posK ik) (posQ a iq)) k')
        (item : CouplingItem x.numModes B) (_ : (asked own).1 = matVec x.b fun i => ((posK ik i : ℕ) : ℝ) / x.nk i)
        (_ : item.q = matVec x.b fun i => ((posQ a iq i : ℕ) : ℝ) / x.nq i) (b1 b2 : Nat) (_ : b2 < item.nb2) (nu : Fin x.numModes),
        (calcCouplingSquared data false (cacheElPh data shares asked own) (asked own).2 garbage [item])[0]?.map (fun g => g b1 b2 nu) =
          some (Complex.normSq (∑ l : Fin B, ∑ m : Fin B, ∑ nu' : Fin x.numModes,
            (starRingEnd ℂ) (stateOf (fun (l w : Fin B) => complexOf (u k' l w)) (fun w => item.ev2 w b2) l) *
            stars[a].coupling iq nu' ik (first + 1 + m) (first + 1 + l) *
            stateOf (fun (l w : Fin B) => complexOf (u (posK ik) l w)) (fun w => (asked own).2 w b1) m *
            ((Matrix.of fun mu nu : Fin x.numModes => stars[a].eigenvector iq nu mu)⁻¹ *ᵥ fun mu => item.ev3 mu nu) nu')) := by
  subst hwb
  exact conversion_offset x hk hq s hdb hck hcq hsk hsq hsub horder _ hw ha hksh hqsh hesh hpre title ks posU hposU u huf hdf hnw x.energies.length (first + 1) (by omega) hnb
    (C143_violated_offset _ _ first hlen hmatch honly) posK hposK stars hgood hst posQ hposQ

noncomputable def smallStar (x : ℝ) (g : Nat → ℂ) : StarContent :=
  ⟨[⟨x, 0, 0⟩], [⟨x, 0, 0⟩], [1], fun _ _ _ => 1, fun _ _ _ _ b => g b⟩

/-- A small conversion: meshes of two wavevectors, one band, one mode, two files of the coupling; Wannier90 has the wavevectors in
the opposite order, and one of Quantum ESPRESSO is a negative one. -/
noncomputable def smallInput : ConversionInput where
  d := fun i j => if i = j then 1 else 0
  b := fun i j => if i = j then 2 * Real.pi else 0
  nk := ![2, 1, 1]
  nq := ![2, 1, 1]
  numModes := 1
  numQEBands := 1
  numWannier := 1
  wannierPrefix := "si"
  uFile := some (rotationFile [] 1 1 [⟨1 / 2, 0, 0⟩, ⟨0, 0, 0⟩] fun w _ _ => if w = 0 then (0, 1) else (1, 0))
  disFile := none
  energies := [0]
  wannierEnergies := [0]
  kGridFull := [⟨0, 0, 0⟩, ⟨1 / 2, 0, 0⟩]
  starFiles := [(smallStar (-1 / 2) (fun b => if b = 0 then 3 + 4 * Complex.I else 1)).file 1 2 1, (smallStar 0 fun _ => 1).file 1 2 1]

/-- One process, one thread. -/
noncomputable def smallShares : ConversionShares smallInput.nk smallInput.nq where
  order := id
  threads M W B _ _ := staticThreads M W B 1
  kShares := [gridList _ pairCoarse_positive]
  qShares := [gridList _ pairCoarse_positive]
  eShares E := [List.finRange E]

theorem small_near (x y : Rat) (m : Int) (h : x - y - m = 0) : NearMod (1 / 10000000000) x y := ⟨m, by rw [h]; norm_num⟩

theorem pair_cases (k : KGrid ![2, 1, 1]) : k = pairFirst ∨ k = pairSecond := by
  revert k
  decide

theorem pair_ne : pairFirst ≠ pairSecond := by decide

theorem first_zero (i : Fin 3) : ((pairFirst i : ℕ) : Rat) = 0 := by fin_cases i <;> simp [pairFirst]

theorem second_one (i : Fin 3) : ((pairSecond i : ℕ) : Rat) = if i = 0 then 1 else 0 := by fin_cases i <;> simp [pairSecond]

theorem small_wannier : ListsGrid ![2, 1, 1] [⟨1 / 2, 0, 0⟩, ⟨0, 0, 0⟩] (fun w => if w = 0 then pairSecond else pairFirst) := by
  refine ⟨fun w hw => ?_, fun k => ?_⟩
  · obtain rfl | rfl : w = 0 ∨ w = 1 := by simp at hw; omega
    · refine ⟨small_near _ _ 0 ?_, small_near _ _ 0 ?_, small_near _ _ 0 ?_⟩ <;> simp [gridCoordinates, second_one]
    · refine ⟨small_near _ _ 0 ?_, small_near _ _ 0 ?_, small_near _ _ 0 ?_⟩ <;> simp [gridCoordinates, first_zero]
  · rcases pair_cases k with rfl | rfl
    · refine ⟨1, ⟨by simp, rfl⟩, fun w hw => ?_⟩
      obtain ⟨hw, h⟩ := hw
      obtain rfl | rfl : w = 0 ∨ w = 1 := by simp at hw; omega
      · exact absurd h.symm pair_ne
      · rfl
    · refine ⟨0, ⟨by simp, rfl⟩, fun w hw => ?_⟩
      obtain ⟨hw, h⟩ := hw
      obtain rfl | rfl : w = 0 ∨ w = 1 := by simp at hw; omega
      · rfl
      · exact absurd h pair_ne

theorem small_espresso : ListsGrid ![2, 1, 1] [⟨0, 0, 0⟩, ⟨1 / 2, 0, 0⟩] (fun w => if w = 0 then pairFirst else pairSecond) := by
  refine ⟨fun w hw => ?_, fun k => ?_⟩
  · obtain rfl | rfl : w = 0 ∨ w = 1 := by simp at hw; omega
    · refine ⟨small_near _ _ 0 ?_, small_near _ _ 0 ?_, small_near _ _ 0 ?_⟩ <;> simp [gridCoordinates, first_zero]
    · refine ⟨small_near _ _ 0 ?_, small_near _ _ 0 ?_, small_near _ _ 0 ?_⟩ <;> simp [gridCoordinates, second_one]
  · rcases pair_cases k with rfl | rfl
    · refine ⟨0, ⟨by simp, rfl⟩, fun w hw => ?_⟩
      obtain ⟨hw, h⟩ := hw
      obtain rfl | rfl : w = 0 ∨ w = 1 := by simp at hw; omega
      · rfl
      · exact absurd h.symm pair_ne
    · refine ⟨1, ⟨by simp, rfl⟩, fun w hw => ?_⟩
      obtain ⟨hw, h⟩ := hw
      obtain rfl | rfl : w = 0 ∨ w = 1 := by simp at hw; omega
      · exact absurd h pair_ne
      · rfl

theorem small_stars (g g' : Nat → ℂ) : StarsGrid ![2, 1, 1] [smallStar (-1 / 2) g, smallStar 0 g'] (fun a _ => if a = 0 then pairSecond else pairFirst) := by
  refine ⟨fun a ha i hi => ?_, fun q => ?_, fun a ha i hi b hb j hj h => ?_⟩
  · obtain rfl | rfl : a = 0 ∨ a = 1 := by simp at ha; omega
    · obtain rfl : i = 0 := by simp [smallStar] at hi; omega
      refine ⟨⟨-1 / 2, 0, 0⟩, by simp [smallStar], small_near _ _ (-1) ?_, small_near _ _ 0 ?_, small_near _ _ 0 ?_⟩ <;>
        simp [gridCoordinates, second_one] <;> norm_num
    · obtain rfl : i = 0 := by simp [smallStar] at hi; omega
      refine ⟨⟨0, 0, 0⟩, by simp [smallStar], small_near _ _ 0 ?_, small_near _ _ 0 ?_, small_near _ _ 0 ?_⟩ <;>
        simp [gridCoordinates, first_zero]
  · rcases pair_cases q with rfl | rfl
    · exact ⟨1, by simp, 0, by simp [smallStar], rfl⟩
    · exact ⟨0, by simp, 0, by simp [smallStar], rfl⟩
  · obtain rfl | rfl : a = 0 ∨ a = 1 := by simp at ha; omega
    · obtain rfl | rfl : b = 0 ∨ b = 1 := by simp at hb; omega
      · simp [smallStar] at hi hj
        exact ⟨rfl, by omega⟩
      · exact absurd h.symm pair_ne
    · obtain rfl | rfl : b = 0 ∨ b = 1 := by simp at hb; omega
      · exact absurd h pair_ne
      · simp [smallStar] at hi hj
        exact ⟨rfl, by omega⟩

/-- The small conversion meets the hypotheses: the matrix element is `3 + 4i`. -/
example : ∃ (E P : Nat) (data : ElPhData E P 1 1), convertCoupling smallInput pairCoarse_positive pairCoarse_positive smallShares =
      .ok ⟨E, P, 1, data⟩ ∧
    let asked : Nat → Vec3 × (Fin 1 → Nat → ℂ) := fun _ => (matVec smallInput.b fun i => ((pairSecond i : ℕ) : ℝ) / smallInput.nk i, fun _ _ => 1)
    (calcCouplingSquared data false (cacheElPh data [List.finRange E] asked 0) (asked 0).2 (fun _ => 0)
      [⟨matVec smallInput.b fun i => ((pairSecond i : ℕ) : ℝ) / smallInput.nq i, 1, fun _ _ => 1, fun _ _ => 1, fun _ => 0⟩])[0]?.map
      (fun g => g 0 0 0) = some 25 := by
  have hsize : ∀ i, (![2, 1, 1] : Fin 3 → Nat) i ≤ 1000 := by decide
  obtain ⟨E, P, data, h, hval⟩ := C190_conversion_partial smallInput pairCoarse_positive pairCoarse_positive smallShares pairCoarse_dual
    (by simpa [meshVector, smallInput] using compact_unit) (by simpa [meshVector, smallInput] using compact_unit) hsize hsize (fun _ => dvd_rfl)
    (fun l => List.Perm.refl l) 1 (fun _ _ => staticThreads_worksharing 1 (by norm_num))
    (fun _ _ => staticThreads_aligned 1 (by simp [smallInput]) (by norm_num)) (by simp [smallShares]) (by simp [smallShares])
    (fun E => by simp [smallShares]) (by simp [smallInput]) [] [⟨1 / 2, 0, 0⟩, ⟨0, 0, 0⟩] (fun w => if w = 0 then pairSecond else pairFirst) small_wannier
    (fun k _ _ => if (k 0 : ℕ) = 0 then (1, 0) else (0, 1))
    (by
      simp only [smallInput]
      congr 2
      funext w
      by_cases hw : w = 0 <;> simp [hw, pairFirst, pairSecond])
    rfl rfl rfl rfl (fun w => if w = 0 then pairFirst else pairSecond) small_espresso
    [smallStar (-1 / 2) (fun b => if b = 0 then 3 + 4 * Complex.I else 1), smallStar 0 fun _ => 1]
    (by
      intro c hc
      simp only [List.mem_cons, List.not_mem_nil, or_false] at hc
      rcases hc with rfl | rfl <;> exact ⟨rfl, rfl⟩)
    (by simp [smallInput]) (fun a _ => if a = 0 then pairSecond else pairFirst) (small_stars _ _)
  refine ⟨E, P, data, h, ?_⟩
  intro asked
  have := hval [List.finRange E] (by simp) asked 0 (fun _ => 0) 1 (by simp [smallInput]) 0 (by simp) 0 (by simp [smallStar]) pairFirst
    (by
      refine ⟨small_near _ _ 1 ?_, small_near _ _ 0 ?_, small_near _ _ 0 ?_⟩ <;>
        simp [sumOfPoints, gridCoordinates, first_zero, second_one, smallInput] <;> norm_num)
    ⟨matVec smallInput.b fun i => ((pairSecond i : ℕ) : ℝ) / smallInput.nq i, 1, fun _ _ => 1, fun _ _ => 1, fun _ => 0⟩ rfl rfl 0 0 (by simp)
    (0 : Fin 1)
  refine this.trans ?_
  have hinv : (Matrix.of fun _ _ : Fin 1 => (1 : ℂ))⁻¹ = 1 := by
    have : (Matrix.of fun _ _ : Fin 1 => (1 : ℂ)) = 1 := by
      ext i j
      obtain rfl : i = j := Subsingleton.elim _ _
      rw [Matrix.one_apply_eq]
      rfl
    rw [this, inv_one]
  have hm : (Matrix.of fun _ _ : Fin smallInput.numModes => (1 : ℂ))⁻¹ = 1 := hinv
  simp [smallStar, hm]
  simp [smallInput, stateOf, pairFirst, pairSecond, complexOf, asked, Complex.normSq]
  norm_num

/-- The same with two bands, of which Wannier90 was given the first. -/
noncomputable def smallMore : ConversionInput :=
  { smallInput with
    numQEBands := 2
    energies := [0, 1]
    starFiles := [(smallStar (-1 / 2) fun b => if b = 0 then 3 + 4 * Complex.I else 1).file 1 2 2, (smallStar 0 fun _ => 1).file 1 2 2] }

/-- The same with a second band that Wannier90 was not given: the matrix element is that of the second band, `1`. -/
example : ∃ (E P : Nat) (data : ElPhData E P 1 1), convertCoupling smallMore pairCoarse_positive pairCoarse_positive smallShares =
      .ok ⟨E, P, 1, data⟩ ∧
    let asked : Nat → Vec3 × (Fin 1 → Nat → ℂ) := fun _ => (matVec smallInput.b fun i => ((pairSecond i : ℕ) : ℝ) / smallInput.nk i, fun _ _ => 1)
    (calcCouplingSquared data false (cacheElPh data [List.finRange E] asked 0) (asked 0).2 (fun _ => 0)
      [⟨matVec smallInput.b fun i => ((pairSecond i : ℕ) : ℝ) / smallInput.nq i, 1, fun _ _ => 1, fun _ _ => 1, fun _ => 0⟩])[0]?.map
      (fun g => g 0 0 0) = some 1 := by
  have hsize : ∀ i, (![2, 1, 1] : Fin 3 → Nat) i ≤ 1000 := by decide
  obtain ⟨E, P, data, h, hval⟩ := C190_violated_bands smallMore pairCoarse_positive pairCoarse_positive smallShares pairCoarse_dual
    (by simpa [meshVector, smallMore, smallInput] using compact_unit) (by simpa [meshVector, smallMore, smallInput] using compact_unit) hsize hsize (fun _ => dvd_rfl)
    (fun l => List.Perm.refl l) 1 (fun _ _ => staticThreads_worksharing 1 (by norm_num))
    (fun _ _ => staticThreads_aligned 1 (by simp [smallMore, smallInput]) (by norm_num)) (List.Perm.of_eq (List.append_nil _))
    (List.Perm.of_eq (List.append_nil _))
    (fun E => by simp [smallShares]) (by simp [smallMore, smallInput]) [] [⟨1 / 2, 0, 0⟩, ⟨0, 0, 0⟩] (fun w => if w = 0 then pairSecond else pairFirst) small_wannier
    (fun k _ _ => if (k 0 : ℕ) = 0 then (1, 0) else (0, 1))
    (by
      simp only [smallMore, smallInput]
      congr 2
      funext w
      by_cases hw : w = 0 <;> simp [hw, pairFirst, pairSecond])
    rfl rfl rfl rfl 0 (by simp [smallMore])
    (by
      intro ib hib
      obtain rfl : ib = 0 := by omega
      rfl)
    (by
      intro i hi hne
      obtain rfl : i = 1 := by simp [smallMore] at hi; omega
      exact ⟨0, by norm_num, by simp [smallMore, smallInput]⟩)
    (fun w => if w = 0 then pairFirst else pairSecond) small_espresso
    [smallStar (-1 / 2) (fun b => if b = 0 then 3 + 4 * Complex.I else 1), smallStar 0 fun _ => 1]
    (by
      intro c hc
      simp only [List.mem_cons, List.not_mem_nil, or_false] at hc
      rcases hc with rfl | rfl <;> exact ⟨rfl, rfl⟩)
    (by simp [smallMore, smallInput]) (fun a _ => if a = 0 then pairSecond else pairFirst) (small_stars _ _)
  refine ⟨E, P, data, h, ?_⟩
  intro asked
  have := hval [List.finRange E] (by simp) asked 0 (fun _ => 0) 1 (by simp [smallMore, smallInput]) 0 (by simp) 0 (by simp [smallStar]) pairFirst
    (by
      refine ⟨small_near _ _ 1 ?_, small_near _ _ 0 ?_, small_near _ _ 0 ?_⟩ <;>
        simp [sumOfPoints, gridCoordinates, first_zero, second_one, smallMore, smallInput] <;> norm_num)
    ⟨matVec smallInput.b fun i => ((pairSecond i : ℕ) : ℝ) / smallInput.nq i, 1, fun _ _ => 1, fun _ _ => 1, fun _ => 0⟩ rfl rfl 0 0 (by simp)
    (0 : Fin 1)
  refine this.trans ?_
  have hinv : (Matrix.of fun _ _ : Fin 1 => (1 : ℂ))⁻¹ = 1 := by
    have : (Matrix.of fun _ _ : Fin 1 => (1 : ℂ)) = 1 := by
      ext i j
      obtain rfl : i = j := Subsingleton.elim _ _
      rw [Matrix.one_apply_eq]
      rfl
    rw [this, inv_one]
  have hm : (Matrix.of fun _ _ : Fin smallMore.numModes => (1 : ℂ))⁻¹ = 1 := hinv
  simp [smallStar, hm]
  simp [smallMore, smallInput, stateOf, pairFirst, pairSecond, complexOf, asked, Complex.normSq]

end Verif.Props
