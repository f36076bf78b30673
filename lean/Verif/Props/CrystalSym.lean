import Verif.Spec.CrystalSym
import Verif.Proofs.Crystal
import Verif.Props.Crystal
import Verif.Proofs.Bands

/-! # C159: symmetry operations of the crystal -/
namespace Verif.Props
open Verif.Model Verif.Spec Matrix

theorem storeOp_rotation (o : SpgOp) : (storeOp o).rotation = (realOf o.1).transpose := by
  ext i j
  simp [storeOp, realOf]

/-- The operations stored are those of the library for this crystal, or the identity. -/
theorem symmetries_source {spg : SpgInput → List SpgOp} (hs : SpgContract spg) {u : Bool} {cell : Mat3}
    {positions : List Vec3} {species : List Int} {ops : List SymmetryOp} {u' : Bool}
    (h : crystalSymmetries spg u cell positions species = .ok (ops, u')) :
    ∃ l, ops = l.map storeOp ∧ IsSpaceGroup (spgInput cell positions species) l ∧
      u' = (if l.length = 1 then false else u) := by
  unfold crystalSymmetries at h
  rw [Outcome.bind_eq_ok_iff] at h
  obtain ⟨l, h1, h2⟩ := h
  cases h2
  refine ⟨l, rfl, ?_, rfl⟩
  cases u with
  | true =>
    simp only [foundOps] at h1
    split at h1
    · cases h1
    · rename_i hl
      cases h1
      exact hs _ (fun e => hl (by rw [e]; rfl))
  | false =>
    simp only [foundOps] at h1
    cases h1
    have hone : (fun (i j : Fin 3) => if i = j then (1 : ℤ) else 0) = (1 : Matrix (Fin 3) (Fin 3) ℤ) := by
      funext i j
      exact (Matrix.one_apply (i := i) (j := j)).symm
    have hr : realOf 1 = (1 : Mat3) := by
      ext i j; simp [realOf, Matrix.one_apply]
    rw [hone]
    refine ⟨⟨[], rfl⟩, ?_, ?_, ?_, ?_⟩
    · intro o ho
      simp only [List.mem_singleton] at ho
      subst ho
      simp [hr]
    · intro o ho i x t hx ht
      simp only [List.mem_singleton] at ho
      subst ho
      refine ⟨i, x, hx, ht, fun _ => 0, ?_⟩
      simp only [hr, Matrix.one_mulVec]
      ext k; simp
    · intro a ha b hb
      simp only [List.mem_singleton] at ha hb
      subst ha; subst hb
      exact ⟨_, List.mem_singleton.2 rfl, by simp⟩
    · intro a ha
      simp only [List.mem_singleton] at ha
      subst ha
      exact ⟨_, List.mem_singleton.2 rfl, by simp⟩

/-- Every rotation stored, as it acts on wavevectors: it maps reciprocal lattice vectors to reciprocal lattice vectors; its
Cartesian form is a rotation or reflection and acts as the crystal form does, so that lengths do not change; the first is the
identity; they form a group. -/
theorem C159_wavevectors (spg : SpgInput → List SpgOp) (hs : SpgContract spg) (u : Bool) (cell : Mat3) (c : Cell)
    (hc : makeCell cell = .ok c) (positions : List Vec3) (species : List Int) (ops : List SymmetryOp) (u' : Bool)
    (h : crystalSymmetries spg u cell positions species = .ok (ops, u')) :
    (∀ s ∈ ops, ∀ n : Fin 3 → ℤ, ∃ m : Fin 3 → ℤ, s.rotation.mulVec (fun k => (n k : ℝ)) = fun k => (m k : ℝ)) ∧
    (∀ r ∈ rotationsOf c ops, r.2.transpose * r.2 = 1 ∧
      ∀ q, matVec r.2 (c.crystalToCartesian q) = c.crystalToCartesian (matVec r.1 q) ∧
        vnorm (c.crystalToCartesian (matVec r.1 q)) = vnorm (c.crystalToCartesian q)) ∧
    (∃ s rest, ops = s :: rest ∧ s.rotation = 1) ∧
    (∀ s ∈ ops, ∀ t ∈ ops, ∃ r ∈ ops, r.rotation = s.rotation * t.rotation) ∧
    (∀ s ∈ ops, ∃ t ∈ ops, s.rotation * t.rotation = 1) := by
  obtain ⟨l, rfl, hg, -⟩ := symmetries_source hs h
  obtain ⟨hd, hcd, hcr⟩ := makeCell_ok cell c hc
  have hu : IsUnit cell.det := isUnit_iff_ne_zero.mpr hd
  have hpi : (2 * Real.pi) ≠ 0 := by positivity
  have hrdet : c.reciprocal.det ≠ 0 := by
    intro h0
    have := (C69_reciprocal cell c hc).2
    rw [h0, abs_zero, mul_zero] at this
    exact absurd this.symm (pow_ne_zero 3 (by positivity))
  have hru : IsUnit c.reciprocal.det := isUnit_iff_ne_zero.mpr hrdet
  have hrealmul : ∀ a b : Matrix (Fin 3) (Fin 3) ℤ, realOf (a * b) = realOf a * realOf b := by
    intro a b
    ext i j
    simp [realOf, Matrix.mul_apply]
  have hrealone : realOf 1 = (1 : Mat3) := by
    ext i j; simp [realOf, Matrix.one_apply]
  refine ⟨?_, ?_, ?_, ?_, ?_⟩
  · intro s hs' n
    obtain ⟨o, ho, rfl⟩ := List.mem_map.1 hs'
    refine ⟨fun k => ∑ i, o.1 i k * n i, ?_⟩
    rw [storeOp_rotation]
    ext k
    simp [Matrix.mulVec, dotProduct, realOf]
  · intro r hr
    unfold rotationsOf at hr
    obtain ⟨s, hs', rfl⟩ := List.mem_map.1 hr
    obtain ⟨o, ho, rfl⟩ := List.mem_map.1 hs'
    have hiso := hg.isometry o ho
    have hlat : (spgInput cell positions species).lattice = cell := rfl
    rw [hlat] at hiso
    have hQ : c.reciprocal * (storeOp o).rotation * inverse3 c.reciprocal =
        (cell⁻¹).transpose * (realOf o.1).transpose * cell.transpose := by
      rw [inverse3_eq _ hrdet, storeOp_rotation]
      have hinv : c.reciprocal⁻¹ = (2 * Real.pi)⁻¹ • cell.transpose := by
        apply Matrix.inv_eq_right_inv
        rw [hcr, Matrix.smul_mul, Matrix.mul_smul, smul_smul, mul_inv_cancel₀ hpi, one_smul, ← Matrix.transpose_mul,
          Matrix.mul_nonsing_inv _ hu, Matrix.transpose_one]
      rw [hinv, hcr, Matrix.smul_mul, Matrix.smul_mul, Matrix.mul_smul, smul_smul, mul_inv_cancel₀ hpi, one_smul]
    have horth' : ((cell⁻¹).transpose * (realOf o.1).transpose * cell.transpose) *
        ((cell⁻¹).transpose * (realOf o.1).transpose * cell.transpose).transpose = 1 := by
      simp only [Matrix.transpose_mul, Matrix.transpose_transpose]
      rw [Matrix.transpose_mul] at hiso
      calc (cell⁻¹).transpose * (realOf o.1).transpose * cell.transpose * (cell * (realOf o.1 * cell⁻¹))
          = (cell⁻¹).transpose * ((realOf o.1).transpose * cell.transpose * (cell * realOf o.1)) * cell⁻¹ := by
            simp only [Matrix.mul_assoc]
        _ = (cell⁻¹).transpose * (cell.transpose * cell) * cell⁻¹ := by rw [hiso]
        _ = ((cell⁻¹).transpose * cell.transpose) * (cell * cell⁻¹) := by simp only [Matrix.mul_assoc]
        _ = 1 := by
          rw [← Matrix.transpose_mul, Matrix.mul_nonsing_inv _ hu, Matrix.transpose_one, Matrix.one_mul]
    have horth : (c.reciprocal * (storeOp o).rotation * inverse3 c.reciprocal).transpose *
        (c.reciprocal * (storeOp o).rotation * inverse3 c.reciprocal) = 1 := by
      rw [hQ]
      exact mul_eq_one_comm.1 horth'
    refine ⟨horth, fun q => ?_⟩
    have hact : matVec (c.reciprocal * (storeOp o).rotation * inverse3 c.reciprocal) (c.crystalToCartesian q) =
        c.crystalToCartesian (matVec (storeOp o).rotation q) := by
      unfold Cell.crystalToCartesian
      simp only [matVec_eq, inverse3_eq _ hrdet, Matrix.mulVec_mulVec]
      rw [Matrix.mul_assoc, Matrix.mul_assoc, Matrix.nonsing_inv_mul _ hru, Matrix.mul_one]
    refine ⟨hact, ?_⟩
    rw [← hact]
    have hdot : ∀ v : Vec3, vdot v v = v ⬝ᵥ v := by
      intro v; simp [vdot, dotProduct, Fin.sum_univ_three]
    unfold vnorm
    rw [hdot, hdot, matVec_eq, Matrix.dotProduct_mulVec, Matrix.vecMul_mulVec]
    rw [horth, Matrix.vecMul_one]
  · obtain ⟨rest, hrest⟩ := hg.first
    refine ⟨storeOp (1, fun _ => 0), rest.map storeOp, by rw [hrest]; rfl, ?_⟩
    rw [storeOp_rotation, hrealone, Matrix.transpose_one]
  · intro s hs' t ht'
    obtain ⟨a, ha, rfl⟩ := List.mem_map.1 hs'
    obtain ⟨b, hb, rfl⟩ := List.mem_map.1 ht'
    obtain ⟨r, hr, e⟩ := hg.mul b hb a ha
    refine ⟨storeOp r, List.mem_map_of_mem hr, ?_⟩
    rw [storeOp_rotation, storeOp_rotation, storeOp_rotation, e, hrealmul, Matrix.transpose_mul]
  · intro s hs'
    obtain ⟨a, ha, rfl⟩ := List.mem_map.1 hs'
    obtain ⟨b, hb, e⟩ := hg.inv a ha
    refine ⟨storeOp b, List.mem_map_of_mem hb, ?_⟩
    rw [storeOp_rotation, storeOp_rotation, ← Matrix.transpose_mul, ← hrealmul, e, hrealone, Matrix.transpose_one]

/-- Each rotation stored belongs to an isometry of space, with the translation stored, that maps every atom to an atom of the
same species, up to a lattice vector; and it maps plane waves as the isometry maps space: the phase of the rotated wavevector
at a point is that of the wavevector at the image of the point. -/
theorem C159_atoms (spg : SpgInput → List SpgOp) (hs : SpgContract spg) (u : Bool) (cell : Mat3) (c : Cell)
    (hc : makeCell cell = .ok c) (positions : List Vec3) (species : List Int) (ops : List SymmetryOp) (u' : Bool)
    (h : crystalSymmetries spg u cell positions species = .ok (ops, u')) (s : SymmetryOp) (hsop : s ∈ ops) :
    ∃ Q : Mat3, Q.transpose * Q = 1 ∧
      (∀ (i : Nat) (r : Vec3) (t : Int), positions[i]? = some r → species[i]? = some t →
        ∃ (j : Nat) (r' : Vec3), positions[j]? = some r' ∧ species[j]? = some t ∧
          ∃ n : Fin 3 → ℤ, Q.mulVec r + cell.mulVec s.translation = r' + cell.mulVec (fun k => (n k : ℝ))) ∧
      ∀ q r : Vec3, vdot (c.crystalToCartesian (matVec s.rotation q)) r = vdot (c.crystalToCartesian q) (Q.mulVec r) := by
  obtain ⟨l, rfl, hg, -⟩ := symmetries_source hs h
  obtain ⟨o, ho, rfl⟩ := List.mem_map.1 hsop
  obtain ⟨hd, hcd, hcr⟩ := makeCell_ok cell c hc
  have hu : IsUnit cell.det := isUnit_iff_ne_zero.mpr hd
  have hiso := hg.isometry o ho
  have hlat : (spgInput cell positions species).lattice = cell := rfl
  rw [hlat] at hiso
  refine ⟨cell * realOf o.1 * cell⁻¹, ?_, ?_, ?_⟩
  · rw [Matrix.transpose_mul]
    calc (cell⁻¹).transpose * (cell * realOf o.1).transpose * (cell * realOf o.1 * cell⁻¹)
        = (cell⁻¹).transpose * ((cell * realOf o.1).transpose * (cell * realOf o.1)) * cell⁻¹ := by
          simp only [Matrix.mul_assoc]
      _ = (cell⁻¹).transpose * (cell.transpose * cell) * cell⁻¹ := by rw [hiso]
      _ = ((cell⁻¹).transpose * cell.transpose) * (cell * cell⁻¹) := by simp only [Matrix.mul_assoc]
      _ = 1 := by rw [← Matrix.transpose_mul, Matrix.mul_nonsing_inv _ hu, Matrix.transpose_one, Matrix.one_mul]
  · intro i r t hr ht
    obtain ⟨j, y, hy, hty, n, e⟩ := hg.atoms o ho i (matVec (inverse3 cell) r) (t + 1)
      (by simp [spgInput, hr]) (by simp [spgInput, ht])
    simp only [spgInput, List.getElem?_map, Option.map_eq_some_iff] at hy hty
    obtain ⟨r', hr', rfl⟩ := hy
    obtain ⟨t', ht', ett⟩ := hty
    have : t' = t := by omega
    subst this
    refine ⟨j, r', hr', ht', n, ?_⟩
    have e2 := congrArg cell.mulVec e
    rw [Matrix.mulVec_add, Matrix.mulVec_add, matVec_eq, matVec_eq, inverse3_eq _ hd] at e2
    simp only [Matrix.mulVec_mulVec] at e2
    rw [Matrix.mul_nonsing_inv _ hu, Matrix.one_mulVec] at e2
    rw [Matrix.mul_assoc]
    exact e2
  · intro q r
    have hdot : ∀ v w : Vec3, vdot v w = v ⬝ᵥ w := by
      intro v w; simp [vdot, dotProduct, Fin.sum_univ_three]
    unfold Cell.crystalToCartesian
    rw [hdot, hdot, storeOp_rotation, matVec_eq, matVec_eq, matVec_eq, hcr]
    rw [Matrix.dotProduct_mulVec, ← Matrix.mulVec_transpose, Matrix.mulVec_mulVec, Matrix.mulVec_mulVec]
    congr 1
    congr 1
    simp only [Matrix.transpose_mul, Matrix.mul_smul, Matrix.smul_mul]
    congr 1
    have hct : cell.transpose * (cell⁻¹).transpose = 1 := by
      rw [← Matrix.transpose_mul, Matrix.nonsing_inv_mul _ hu, Matrix.transpose_one]
    simp only [Matrix.mul_assoc, hct, Matrix.mul_one]

/-- Without symmetries there is only the identity; failures of the library are refused; the use of symmetries is switched off
if and only if the identity is alone. -/
theorem C159_switch (spg : SpgInput → List SpgOp) (cell : Mat3) (positions : List Vec3)
    (species : List Int) :
    (∃ s, crystalSymmetries spg false cell positions species = .ok ([s], false) ∧ s.rotation = 1 ∧ s.translation = 0) ∧
    (spg (spgInput cell positions species) = [] → crystalSymmetries spg true cell positions species = .error) ∧
    ∀ ops u', crystalSymmetries spg true cell positions species = .ok (ops, u') →
      (u' = false ↔ ops.length = 1) ∧ ops.length = (spg (spgInput cell positions species)).length := by
  refine ⟨⟨storeOp (fun i j => if i = j then 1 else 0, fun _ => 0), ?_, ?_, ?_⟩, ?_, ?_⟩
  · simp [crystalSymmetries, foundOps, Outcome.bind_eq]
  · ext i j
    by_cases hij : i = j
    · subst hij; simp [storeOp]
    · have : ¬ j = i := fun e => hij e.symm
      simp [storeOp, hij, this]
  · rfl
  · intro h
    simp [crystalSymmetries, foundOps, h, Outcome.bind_eq, Outcome.bind]
  · intro ops u' h
    unfold crystalSymmetries at h
    rw [Outcome.bind_eq_ok_iff] at h
    obtain ⟨l, h1, h2⟩ := h
    simp only [foundOps] at h1
    split at h1
    · cases h1
    · cases h1
      cases h2
      simp

/-- A cubic cell with one atom at the origin, and a library that finds the identity and the inversion in it. -/
theorem cubic_inversion : IsSpaceGroup (spgInput 1 [0] [0]) [(1, fun _ => 0), (-1, fun _ => 0)] := by
  have h1 : realOf 1 = (1 : Mat3) := by ext i j; simp [realOf, Matrix.one_apply]
  have h2 : realOf (-1) = (-1 : Mat3) := by
    ext i j
    by_cases hij : i = j <;> simp [realOf, hij]
  have hz : ∀ m : Mat3, matVec m 0 = 0 := fun m => by rw [matVec_eq, Matrix.mulVec_zero]
  refine ⟨⟨_, rfl⟩, ?_, ?_, ?_, ?_⟩
  · intro o ho
    simp only [List.mem_cons, List.not_mem_nil, or_false] at ho
    rcases ho with rfl | rfl
    · simp [h1]
    · simp [h2]
  · intro o ho i x t hx ht
    simp only [spgInput, List.map_cons, List.map_nil, hz] at hx ht
    cases i with
    | succ i => simp at hx
    | zero =>
      simp only [List.getElem?_cons_zero, Option.some.injEq] at hx ht
      refine ⟨0, 0, by simp [spgInput, hz], by simpa [spgInput] using ht, fun _ => 0, ?_⟩
      rw [← hx, Matrix.mulVec_zero]
      simp only [List.mem_cons, List.not_mem_nil, or_false] at ho
      rcases ho with rfl | rfl <;> (ext k; simp)
  · intro a ha b hb
    simp only [List.mem_cons, List.not_mem_nil, or_false] at ha hb
    rcases ha with rfl | rfl <;> rcases hb with rfl | rfl <;> simp
  · intro a ha
    simp only [List.mem_cons, List.not_mem_nil, or_false] at ha
    rcases ha with rfl | rfl <;> simp

/-- The hypotheses of the three theorems are met by a crystal with an operation besides the identity. -/
example : ∃ (spg : SpgInput → List SpgOp) (c : Cell) (ops : List SymmetryOp), SpgContract spg ∧ makeCell 1 = .ok c ∧
    crystalSymmetries spg true 1 [0] [0] = .ok (ops, true) ∧ ops.length = 2 := by
  classical
  obtain ⟨c, hc, -⟩ := (C69_volume 1).1 (by simp)
  have hspg : ∀ inp, (if IsSpaceGroup inp [(1, fun _ => 0), (-1, fun _ => 0)] then
      [(1, fun _ => 0), (-1, fun _ => 0)] else ([] : List SpgOp)) ≠ [] →
      IsSpaceGroup inp (if IsSpaceGroup inp [(1, fun _ => 0), (-1, fun _ => 0)] then
        [(1, fun _ => 0), (-1, fun _ => 0)] else ([] : List SpgOp)) := by
    intro inp h
    by_cases hi : IsSpaceGroup inp [(1, fun _ => 0), (-1, fun _ => 0)]
    · rw [if_pos hi]; exact hi
    · rw [if_neg hi] at h; exact absurd rfl h
  refine ⟨fun inp => if IsSpaceGroup inp [(1, fun _ => 0), (-1, fun _ => 0)] then
    [(1, fun _ => 0), (-1, fun _ => 0)] else [], c, [(1, fun _ => 0), (-1, fun _ => 0)].map storeOp, hspg, hc, ?_, rfl⟩
  simp [crystalSymmetries, foundOps, cubic_inversion, Outcome.bind_eq]

end Verif.Props
