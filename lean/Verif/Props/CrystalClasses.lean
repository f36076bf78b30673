import Verif.Proofs.CrystalClasses
import Verif.Props.Crystal
import Verif.Props.BlochWannier

/-!
# C70, C141: the weights of the lattice vectors
-/
namespace Verif.Props
open Verif.Model Verif.Spec
open scoped Matrix

variable {E P M W B R : Nat}

/-! ## C70 the weights of equivalent vectors -/

open scoped Classical in
/-- C70 (weights): in a compact supercell the vectors are always returned, and the inverse degeneracies of those that
are equivalent to any lattice vector `p` add up to one. -/
theorem C70_classes (d : Mat3) (grid : V3 Int) (hg : 0 < grid.x ∧ 0 < grid.y ∧ 0 < grid.z) (nx : Int) (hnx : 1 ≤ nx)
    (hc : CompactGrid d grid) :
    ∃ ls : List (V3 Int × Nat),
      buildWignerSeitz d grid nx = .ok (ls.map fun q => d *ᵥ ![(q.1.x : ℝ), (q.1.y : ℝ), (q.1.z : ℝ)], ls.map Prod.snd) ∧
      ∀ p, ((ls.filter fun q => decide (SameCell grid q.1 p)).map fun q => 1 / (q.2 : ℝ)).sum = 1 := by
  obtain ⟨ls, hb, l, hl, hp⟩ := build_classes d grid hg nx hnx hc
  refine ⟨ls, ?_, fun p => ?_⟩
  · rw [hb]
    congr 2
    apply List.map_congr_left
    intro q _
    rw [matVec_eq]; rfl
  · refine Eq.trans ?_ (collect_class d grid hg nx hnx hc l hl p)
    exact (List.Perm.map (fun q : V3 Int × Nat => 1 / (q.2 : ℝ)) (hp.filter _)).sum_eq

/-- Supercells that are compact: those of cells with perpendicular edges between 1 and 10000 bohr, and all those whose
covering radius is not larger than the distance between the faces. -/
theorem C70_compact :
    (∀ (d : Mat3) (grid : V3 Int) (a : Fin 3 → ℝ), 0 < grid.x ∧ 0 < grid.y ∧ 0 < grid.z → (∀ i, 0 < a i) →
      dᵀ * d = Matrix.diagonal (fun i => a i ^ 2) → (1 ≤ grid.x * a 0 ∧ grid.x * a 0 ≤ 10000) →
      (1 ≤ grid.y * a 1 ∧ grid.y * a 1 ≤ 10000) → (1 ≤ grid.z * a 2 ∧ grid.z * a 2 ≤ 10000) → CompactGrid d grid) ∧
    (∀ (d b : Mat3) (grid : V3 Int) (radius : ℝ), b * d = 1 →
      (∀ v, ∃ w, SameCell grid w v ∧ latticeLength d w ≤ radius) →
      (∀ i : Fin 3, (radius + 1 / 1000000) * vnorm (b i) < ![(grid.x : ℝ), (grid.y : ℝ), (grid.z : ℝ)] i + 1) →
      CompactGrid d grid) :=
  ⟨fun d grid a hg ha hd hx hy hz => compact_rectangular d grid hg a ha hd hx hy hz,
    fun d b grid radius hdb hcover hface => compact_of_covering d b hdb grid radius hcover hface⟩

theorem compact_unit : CompactGrid (fun i j => if i = j then 1 else 0) ⟨2, 1, 1⟩ := by
  refine C70_compact.1 _ _ (fun _ => 1) (by norm_num) (by norm_num) ?_ (by norm_num) (by norm_num) (by norm_num)
  have h1 : @Eq Mat3 (fun i j => if i = j then 1 else 0) (1 : Mat3) := by
    ext i j
    rw [Matrix.one_apply]
  rw [h1]
  simp

/-- A case that meets the hypotheses: two cells of a cube; the weights of the odd vectors, which are at the border of the
supercell, add up to one. -/
example : ∃ ls : List (V3 Int × Nat),
    buildWignerSeitz (fun i j => if i = j then 1 else 0) ⟨2, 1, 1⟩ 2 =
      .ok (ls.map fun q => (fun i j : Fin 3 => if i = j then (1 : ℝ) else 0) *ᵥ ![(q.1.x : ℝ), (q.1.y : ℝ), (q.1.z : ℝ)], ls.map Prod.snd) ∧
    ∃ q ∈ ls, q.1.x % 2 = 1 := by
  classical
  obtain ⟨ls, h, hs⟩ := C70_classes _ ⟨2, 1, 1⟩ (by norm_num) 2 (by norm_num) compact_unit
  refine ⟨ls, h, ?_⟩
  by_contra hcc
  push Not at hcc
  have h1 := hs ⟨1, 0, 0⟩
  rw [List.filter_eq_nil_iff.mpr] at h1
  · simp at h1
  · intro q hq hcell
    rw [decide_eq_true_eq] at hcell
    have := hcell.1
    simp only at this
    exact hcc q hq (by omega)

/-! ## C141 with the lattice vectors of the program -/

open scoped Classical in
theorem sum_filter_list {α : Type} (l : List α) (p : α → Prop) (f : α → ℝ) :
    ((l.filter fun q => decide (p q)).map f).sum = (l.map fun q => if p q then f q else 0).sum := by
  induction l with
  | nil => rfl
  | cons a t ih =>
    by_cases h : p a
    · simp [h, ih]
    · simp [h, ih]

/-- The number of cells of a supercell along each edge, as a vector of integers. -/
def meshVector (n : Fin 3 → Nat) : V3 Int := ⟨n 0, n 1, n 2⟩

theorem cellWeights_lattice (d : Mat3) (n : Fin 3 → Nat) (hn : ∀ i, 0 < n i) (hc : CompactGrid d (meshVector n)) (nx : Int) (hnx : 1 ≤ nx)
    (v : Fin R → Vec3) (g : Fin R → Nat) (h : buildWignerSeitz d (meshVector n) nx = .ok (List.ofFn v, List.ofFn g)) :
    ∃ m : Fin R → Fin 3 → ℤ, (∀ r, v r = matVec d fun i => (m r i : ℝ)) ∧ CellWeights n m fun r => (g r : ℝ) := by
  classical
  obtain ⟨ls, hb, hs⟩ := C70_classes d (meshVector n)
    ⟨by simpa [meshVector] using hn 0, by simpa [meshVector] using hn 1, by simpa [meshVector] using hn 2⟩ nx hnx hc
  rw [h] at hb
  injection hb with hb
  injection hb with hv hd
  have hlen : ls.length = R := by
    have := congrArg List.length hd
    simpa using this.symm
  subst hlen
  have hv' : ∀ r : Fin ls.length, v r = d *ᵥ ![((ls.get r).1.x : ℝ), ((ls.get r).1.y : ℝ), ((ls.get r).1.z : ℝ)] := by
    intro r
    have := congrArg (fun l => l[(r : ℕ)]?) hv
    simpa using this
  have hg' : ∀ r : Fin ls.length, g r = (ls.get r).2 := by
    intro r
    have := congrArg (fun l => l[(r : ℕ)]?) hd
    simpa using this
  refine ⟨fun r => ![(ls.get r).1.x, (ls.get r).1.y, (ls.get r).1.z], fun r => ?_, fun p => ?_⟩
  · rw [hv', matVec_eq]
    congr 1
    funext i
    fin_cases i <;> rfl
  · have hsum := hs ⟨(p 0 : ℕ), (p 1 : ℕ), (p 2 : ℕ)⟩
    rw [sum_filter_list] at hsum
    rw [Finset.sum_filter]
    refine Eq.trans ?_ hsum
    conv_rhs => rw [← List.ofFn_get ls, List.map_ofFn, List.sum_ofFn]
    refine Finset.sum_congr rfl fun r _ => ?_
    have hiff : (∀ i, (n i : ℤ) ∣ ![(ls.get r).1.x, (ls.get r).1.y, (ls.get r).1.z] i - (p i : ℕ)) ↔
        SameCell (meshVector n) (ls.get r).1 ⟨(p 0 : ℕ), (p 1 : ℕ), (p 2 : ℕ)⟩ := by
      rw [Fin.forall_fin_succ, Fin.forall_fin_succ, Fin.forall_fin_succ]
      simp only [SameCell, meshVector]
      constructor
      · rintro ⟨a, b, c, _⟩; exact ⟨a, b, c⟩
      · rintro ⟨a, b, c⟩; exact ⟨a, b, c, fun i => i.elim0⟩
    by_cases hh : SameCell (meshVector n) (ls.get r).1 ⟨(p 0 : ℕ), (p 1 : ℕ), (p 2 : ℕ)⟩
    · rw [if_pos (hiff.mpr hh), Function.comp, if_pos hh]; beta_reduce; rw [hg']
    · rw [if_neg fun hc => hh (hiff.mp hc), Function.comp, if_neg hh]

/-- C141 (partial): `C141_states_partial` with the lattice vectors and degeneracies that the program makes for the two
meshes, in place of the hypothesis on the weights.
Missing: threads that share the rotation otherwise (C140), the polar correction (C142), and supercells that are not
compact. -/
theorem C141_lattice_partial (d b : Mat3) (hdb : DualCells d b) (nk nq : Fin 3 → Nat) (hnk : ∀ i, 0 < nk i)
    (hnq : ∀ i, 0 < nq i) (c : CoarseData (KGrid nk) (KGrid nq) E P M W B) (hks : EachOnce c.ks) (hqs : EachOnce c.qs)
    (hkc : ∀ k, c.kCart k = gridPoint b k) (hqc : ∀ q, c.qCart q = gridPoint b q)
    -- the lattice vectors and their degeneracies are those of the two meshes
    (hck : CompactGrid d (meshVector nk)) (hcq : CompactGrid d (meshVector nq)) (dE : Fin E → Nat) (dP : Fin P → Nat)
    (hE : buildWignerSeitz d (meshVector nk) 2 = .ok (List.ofFn c.elVectors, List.ofFn dE))
    (hP : buildWignerSeitz d (meshVector nq) 2 = .ok (List.ofFn c.phVectors, List.ofFn dP))
    -- how the work of the transform is shared
    (threads : KGrid nk → KGrid nq → List (GaugeThread M W B))
    (hw : ∀ k q, Worksharing (threads k q)) (ha : ∀ k q, Aligned (threads k q))
    (kShares : List (List (KGrid nk))) (qShares : List (List (KGrid nq))) (eShares : List (List (Fin E)))
    (hksh : kShares.flatten.Perm c.ks) (hqsh : qShares.flatten.Perm c.qs) (hesh : eShares.flatten.Perm (List.finRange E))
    -- what is asked from the interpolation
    (shares : List (List (Fin E))) (hs : shares.flatten.Perm (List.finRange E)) (asked : Nat → Vec3 × (Fin W → Nat → ℂ))
    (own : Nat) (garbage : Nat → ℂ) (k : KGrid nk) (q : KGrid nq) (item : CouplingItem M W)
    (h1 : (asked own).1 = c.kCart k) (h3 : item.q = c.qCart q) (b1 b2 : Nat) (hb2 : b2 < item.nb2) (nu : Fin M) :
    let file := coarseElPhData c (fun r => (dE r : ℝ)) (fun r => (dP r : ℝ)) (blochToWannier c threads kShares qShares eShares)
    (calcCouplingSquared file false (cacheElPh file shares asked own) (asked own).2 garbage [item])[0]?.map
      (fun g => g b1 b2 nu) = some (Complex.normSq (∑ l, ∑ m, ∑ nu',
        (starRingEnd ℂ) (stateOf (c.u (c.kPlusQ k q)) (fun w => item.ev2 w b2) l) * c.g l m nu' k q *
        stateOf (c.u k) (fun w => (asked own).2 w b1) m * ((c.phEig q)⁻¹ *ᵥ fun mu => item.ev3 mu nu) nu')) := by
  obtain ⟨mE, hmE, hdE⟩ := cellWeights_lattice d nk hnk hck 2 (by norm_num) c.elVectors dE hE
  obtain ⟨mP, hmP, hdP⟩ := cellWeights_lattice d nq hnq hcq 2 (by norm_num) c.phVectors dP hP
  exact C141_states_partial d b hdb nk nq hnk hnq c hks hqs hkc hqc mE hmE mP hmP _ hdE _ hdP threads hw ha kShares qShares eShares
    hksh hqsh hesh shares hs asked own garbage k q item h1 h3 b1 b2 hb2 nu

/-- A case that meets the hypotheses: the two wavevectors of `pairCoarse`, with the lattice vectors that the program
makes; the matrix element between the states of the second wavevector is `5`. -/
example : ∃ (R : Nat) (v : Fin R → Vec3) (g : Fin R → Nat),
    buildWignerSeitz (fun i j => if i = j then 1 else 0) (meshVector ![2, 1, 1]) 2 = .ok (List.ofFn v, List.ofFn g) ∧
    let c : CoarseData (KGrid ![2, 1, 1]) (KGrid ![2, 1, 1]) R R 1 1 1 :=
      { pairCoarse (B := 1) (fun _ _ => 1) fun _ _ => Complex.I with elVectors := v, phVectors := v }
    let file := coarseElPhData c (fun r => (g r : ℝ)) (fun r => (g r : ℝ))
      (blochToWannier c (fun _ _ => staticThreads 1 1 1 1) [[], c.ks] [c.qs, []] [List.finRange R])
    let asked : Nat → Vec3 × (Fin 1 → Nat → ℂ) := fun _ => (c.kCart pairSecond, fun _ _ => Complex.I)
    (calcCouplingSquared file false (cacheElPh file [List.finRange R] asked 0) (asked 0).2 (fun _ => 0)
      [⟨c.qCart pairFirst, 1, fun _ _ => Complex.I, fun _ _ => 1, fun _ => 0⟩])[0]?.map (fun g => g 0 0 0) = some 25 := by
  classical
  obtain ⟨ls, h, _⟩ := C70_classes _ (meshVector ![2, 1, 1]) (by simp [meshVector]) 2 (by norm_num) (by simpa [meshVector] using compact_unit)
  have hb : buildWignerSeitz (fun i j => if i = j then 1 else 0) (meshVector ![2, 1, 1]) 2 =
      .ok (List.ofFn fun r : Fin ls.length => (fun i j : Fin 3 => if i = j then (1 : ℝ) else 0) *ᵥ
        ![((ls.get r).1.x : ℝ), ((ls.get r).1.y : ℝ), ((ls.get r).1.z : ℝ)], List.ofFn fun r : Fin ls.length => (ls.get r).2) := by
    rw [h]
    congr 2
    · conv_lhs => rw [← List.ofFn_get ls, List.map_ofFn]
      rfl
    · conv_lhs => rw [← List.ofFn_get ls, List.map_ofFn]
      rfl
  refine ⟨_, _, _, hb, ?_⟩
  intro c file asked
  have := C141_lattice_partial _ _ pairCoarse_dual ![2, 1, 1] ![2, 1, 1] pairCoarse_positive pairCoarse_positive c
    pairCoarse_once pairCoarse_once (fun _ => rfl) (fun _ => rfl) (by simpa [meshVector] using compact_unit)
    (by simpa [meshVector] using compact_unit) _ _ hb hb (fun _ _ => staticThreads 1 1 1 1)
    (fun _ _ => staticThreads_worksharing 1 (by norm_num)) (fun _ _ => staticThreads_aligned 1 (by norm_num) (by norm_num))
    [[], c.ks] [c.qs, []] [List.finRange ls.length] (by simp) (by simp) (by simp) [List.finRange ls.length] (by simp) asked 0 (fun _ => 0)
    pairSecond pairFirst ⟨c.qCart pairFirst, 1, fun _ _ => Complex.I, fun _ _ => 1, fun _ => 0⟩ rfl rfl 0 0 (by simp) 0
  refine this.trans ?_
  simp [c, pairCoarse, pairSecond, pairFirst, stateOf, asked, Fin.add_def]
  try norm_num

end Verif.Props
