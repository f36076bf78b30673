import Verif.Model.RunCoupling
import Verif.Proofs.ElPhHeader
import Verif.Proofs.ElPhCoupling
import Verif.Proofs.Crystal
import Verif.Model.Conversion

/-! Lemmas on the coupling of a run (C191). -/
namespace Verif.Model
open Verif.Spec

variable {E P M W : Nat}

theorem mixed_lt {a b x y : Nat} (hx : x < a) (hy : y < b) : x * b + y < a * b := by
  have : (x + 1) * b ≤ a * b := Nat.mul_le_mul_right _ hx
  rw [Nat.add_mul, Nat.one_mul] at this
  omega

theorem mixed_div {b x y : Nat} (hy : y < b) : (x * b + y) / b = x := by
  rw [Nat.add_comm, Nat.add_mul_div_right _ _ (by omega), Nat.div_eq_of_lt hy, Nat.zero_add]

theorem mixed_mod {b x y : Nat} (hy : y < b) : (x * b + y) % b = y := by
  rw [Nat.add_comm, Nat.add_mul_mod_self_right, Nat.mod_eq_of_lt hy]

theorem tensorMemory_at (d : ElPhData E P M W) (irE : Fin E) (irP : Fin P) (nu : Fin M) (iw1 iw2 : Fin W) :
    tensorMemory d irE ((((irP : ℕ) * M + nu) * W + iw1) * W + iw2) = d.coupling irE irP nu iw1 iw2 := by
  have e1 : ((((irP : ℕ) * M + nu) * W + iw1) * W + iw2) % W = iw2 := mixed_mod iw2.2
  have e2 : ((((irP : ℕ) * M + nu) * W + iw1) * W + iw2) / W = ((irP : ℕ) * M + nu) * W + iw1 := mixed_div iw2.2
  have e3 : ((((irP : ℕ) * M + nu) * W + iw1) * W + iw2) / (W * W) = (irP : ℕ) * M + nu := by
    rw [← Nat.div_div_eq_div_mul, e2, mixed_div iw1.2]
  have e4 : ((((irP : ℕ) * M + nu) * W + iw1) * W + iw2) / (W * W * M) = irP := by
    rw [← Nat.div_div_eq_div_mul, e3, mixed_div nu.2]
  unfold tensorMemory
  rw [e1, e2, e3, e4, mixed_mod iw1.2, mixed_mod nu.2]
  unfold couplingAtNumbers
  rw [dif_pos ⟨irE.2, irP.2, nu.2, iw1.2, iw2.2⟩]

/-- The block of a process, as indices of the file. -/
theorem block_get (ps r i : Nat) (hi : i < head E ps (r + 1) - head E ps r) (hE : head E ps r + i < E) :
    (blockOf (List.finRange E) ps r)[i]? = some ⟨head E ps r + i, hE⟩ := by
  rw [blockOf_getElem? _ _ _ _ (by simpa using hi)]
  simp [hE]

/-- A process that has the vectors of its share sums over them. -/
theorem rotate_block (d : ElPhData E P M W) (ps r : Nat) (hr : r < ps) (p : ProcessCoupling)
    (h1 : p.elVectors = blockOf (List.ofFn d.elVectors) ps r) (h2 : p.elDegeneracies = blockOf (List.ofFn d.elDegeneracies) ps r)
    (h3 : p.tensor = elementsOf (tensorMemory d) (W * W * M * P) (List.range' (head E ps r) (head E ps (r + 1) - head E ps r)))
    (k : Vec3) (ev : Fin W → Nat → ℂ) :
    elphRotate (deviceData P M W p) (List.finRange _) k ev = elphRotate d (blockOf (List.finRange E) ps r) k ev := by
  have hle : head E ps (r + 1) ≤ E := head_le hr (by omega)
  have hlen : p.elVectors.length = head E ps (r + 1) - head E ps r := by rw [h1, blockOf_length _ _ _ hr, List.length_ofFn]
  funext irP nu ib1 iw2
  unfold elphRotate
  congr 1
  apply List.map_congr_left
  intro iw1 _
  congr 1
  unfold elphFourier
  congr 1
  apply List.ext_getElem?
  intro i
  by_cases hi : i < head E ps (r + 1) - head E ps r
  · rw [List.getElem?_map, List.getElem?_map, block_get ps r i hi (by omega)]
    rw [List.getElem?_eq_getElem (by simpa [hlen] using hi)]
    simp only [Option.map_some, List.getElem_finRange]
    have v : p.elVectors[i]? = some (d.elVectors ⟨head E ps r + i, by omega⟩) := by
      have hb : head E ps r + i < E := by omega
      rw [h1, blockOf_getElem? _ _ _ _ (by simpa using hi)]
      simp [List.getElem?_ofFn, hb]
    have g : p.elDegeneracies.getD i 0 = d.elDegeneracies ⟨head E ps r + i, by omega⟩ := by
      have hb : head E ps r + i < E := by omega
      rw [h2, List.getD_eq_getElem?_getD, blockOf_getElem? _ _ _ _ (by simpa using hi)]
      simp [List.getElem?_ofFn, hb]
    have t : p.tensor.getD ((((i * P + irP) * M + nu) * W + iw1) * W + iw2) 0 = d.coupling ⟨head E ps r + i, by omega⟩ irP nu iw1 iw2 := by
      have hj : (((irP : ℕ) * M + nu) * W + iw1) * W + iw2 < W * W * M * P := by
        have a1 := mixed_lt irP.2 nu.2
        have a2 := mixed_lt a1 iw1.2
        have a3 := mixed_lt a2 iw2.2
        calc _ < P * M * W * W := a3
          _ = W * W * M * P := by ring
      have e : (((i * P + irP) * M + nu) * W + iw1) * W + iw2 = i * (W * W * M * P) + ((((irP : ℕ) * M + nu) * W + iw1) * W + iw2) := by ring
      rw [e, h3, List.getD_eq_getElem?_getD, elementsOf_block_getElem? _ _ _ _ _ _ hi hj, Option.getD_some]
      exact tensorMemory_at d ⟨head E ps r + i, by omega⟩ irP nu iw1 iw2
    have v' : p.elVectors.get ⟨i, by rw [hlen]; exact hi⟩ = d.elVectors ⟨head E ps r + i, by omega⟩ := by
      rw [List.getElem?_eq_getElem (by rw [hlen]; exact hi)] at v
      exact Option.some.inj v
    refine congrArg some ?_
    rw [← t, ← v', ← g]
    rfl
  · rw [List.getElem?_eq_none (by simpa [hlen] using hi), List.getElem?_eq_none (by
      rw [List.length_map, blockOf_length _ _ _ hr]; simpa using hi)]

theorem poolCache_sum (P M W : Nat) (procs : List ProcessCoupling) (asked : Nat → Vec3 × (Fin W → Nat → ℂ)) (own : Nat) :
    poolCache P M W procs asked own = fun irP nu ib1 iw2 =>
      (procs.map fun p => elphRotate (deviceData P M W p) (List.finRange _) (asked own).1 (asked own).2 irP nu ib1 iw2).sum := by
  unfold poolCache
  split
  · funext irP nu ib1 iw2
    simp
  · rfl

theorem cacheElPh_sum (d : ElPhData E P M W) (shares : List (List (Fin E))) (asked : Nat → Vec3 × (Fin W → Nat → ℂ)) (own : Nat) :
    cacheElPh d shares asked own = fun irP nu ib1 iw2 =>
      (shares.map fun vectors => elphRotate d vectors (asked own).1 (asked own).2 irP nu ib1 iw2).sum := by
  unfold cacheElPh
  split
  · funext irP nu ib1 iw2
    simp
  · rfl

/-! The number of lattice vectors. -/

theorem wsCollect_length_le (d : Mat3) (grid : V3 Int) (nx : Int) (shift : Vec3) (mid : Nat) (box : List (V3 Int)) (l : List (V3 Int × Nat))
    (h : wsCollect d grid nx shift mid box = .ok l) : l.length ≤ box.length := by
  induction box generalizing l with
  | nil => simp only [wsCollect, Outcome.ok.injEq] at h; subst h; simp
  | cons i rest ih =>
    simp only [wsCollect, Outcome.bind_eq_ok_iff] at h
    obtain ⟨o, _, l', hl', h⟩ := h
    have := ih l' hl'
    cases o with
    | none => simp only [Outcome.ok.injEq] at h; subst h; simp; omega
    | some deg => simp only [Outcome.ok.injEq] at h; subst h; simpa using this

theorem swapFirst_length {α : Type} (l l' : List α) (k : Nat) (h : swapFirst l k = .ok l') : l'.length = l.length := by
  simp only [swapFirst, Outcome.bind_eq_ok_iff, Outcome.ok.injEq] at h
  obtain ⟨_, _, _, _, rfl⟩ := h
  simp

theorem sum_inverse_le (l : List (V3 Int × Nat)) : (l.map fun p => 1 / (p.2 : ℝ)).sum ≤ l.length := by
  induction l with
  | nil => simp
  | cons p l ih =>
    have h1 : 1 / (p.2 : ℝ) ≤ 1 := by
      rcases Nat.eq_zero_or_pos p.2 with h | h
      · rw [h]; norm_num
      · have : (1 : ℝ) ≤ p.2 := by exact_mod_cast h
        rw [div_le_one (by linarith)]; exact this
    simp only [List.map_cons, List.sum_cons, List.length_cons, Nat.cast_add, Nat.cast_one]
    linarith

/-- The lattice vectors are at least as many as the wavevectors of the mesh, and at most those of the box. -/
theorem buildWignerSeitz_length (d : Mat3) (n1 n2 n3 : Nat) (nx : Int) (r : List Vec3 × List Nat)
    (h : buildWignerSeitz d ⟨n1, n2, n3⟩ nx = .ok r) : n1 * n2 * n3 ≤ r.1.length ∧ r.1.length ≤ (wsBox ⟨n1, n2, n3⟩ nx).length := by
  simp only [buildWignerSeitz, Outcome.bind_eq_ok_iff] at h
  obtain ⟨l, hl, h⟩ := h
  split at h
  · cases h
  · rename_i htot
    split at h
    · cases h
    · simp only [Outcome.bind_eq_ok_iff, Outcome.ok.injEq] at h
      obtain ⟨degs, _, vecs, hv, rfl⟩ := h
      have e : vecs.length = l.length := by rw [swapFirst_length _ _ _ hv, List.length_map]
      refine ⟨?_, by rw [e]; exact wsCollect_length_le _ _ _ _ _ _ _ hl⟩
      rw [e]
      have h1 := sum_inverse_le l
      have h2 := (abs_le.mp (not_lt.mp htot)).1
      have h3 : ((n1 * n2 * n3 : ℕ) : ℝ) < (l.length : ℝ) + 1 := by
        push_cast at h2 ⊢
        linarith
      have h4 : n1 * n2 * n3 < l.length + 1 := by exact_mod_cast h3
      omega

theorem convertCoupling_sizes (x : ConversionInput) (hk : ∀ i, 0 < x.nk i) (hq : ∀ i, 0 < x.nq i) (s : ConversionShares x.nk x.nq)
    (r : ConvertedCoupling x.numModes) (h : convertCoupling x hk hq s = .ok r) :
    (x.nk 0 * x.nk 1 * x.nk 2 ≤ r.E ∧ r.E ≤ (wsBox ⟨x.nk 0, x.nk 1, x.nk 2⟩ 2).length) ∧
      (x.nq 0 * x.nq 1 * x.nq 2 ≤ r.P ∧ r.P ≤ (wsBox ⟨x.nq 0, x.nq 1, x.nq 2⟩ 2).length) := by
  simp only [convertCoupling, Outcome.bind_eq_ok_iff, Outcome.ok.injEq] at h
  obtain ⟨_, _, _, _, _, _, _, _, el, hel, ph, hph, _, _, _, _, _, _, rfl⟩ := h
  exact ⟨buildWignerSeitz_length _ _ _ _ _ _ hel, buildWignerSeitz_length _ _ _ _ _ _ hph⟩

end Verif.Model
