import Verif.Proofs.XmlBands
import Mathlib.Tactic.IntervalCases

/-!
C153: the wavevectors and the energies of the XML file of Quantum ESPRESSO.
-/
namespace Verif.Props
open Verif.Model Verif.Spec Verif.Proofs

/-- C153: for a list that has each point of a uniform mesh once, in any order and anywhere in reciprocal space, up to the last digits of the file,
`Points::findMesh` returns the numbers of points of the mesh, and an offset in the unit cell that is one of the points of the mesh. -/
theorem C153_mesh {ε : Rat} (hε : ε ≤ 1 / 10000000000) {n : V3 Nat} (hx : 1 ≤ n.x ∧ n.x ≤ 1000) (hy : 1 ≤ n.y ∧ n.y ≤ 1000) (hz : 1 ≤ n.z ∧ n.z ≤ 1000)
    {o : V3 Rat} {pts : List (V3 Rat)} (h : IsMesh ε n o pts) :
    ∃ b : V3 Rat, findMesh pts = .ok (⟨n.x, n.y, n.z⟩, b) ∧
      (0 ≤ b.x ∧ b.x < 1) ∧ (0 ≤ b.y ∧ b.y < 1) ∧ (0 ≤ b.z ∧ b.z < 1) ∧
      ∃ i j k : Int, |b.x - (o.x + i / n.x)| ≤ ε ∧ |b.y - (o.y + j / n.y)| ≤ ε ∧ |b.z - (o.z + k / n.z)| ≤ ε := by
  obtain ⟨b, e, hb⟩ := findMesh_on hε ⟨hx, hy, hz⟩ h
  obtain ⟨x0, x1, i, hi⟩ := hb.x
  obtain ⟨y0, y1, j, hj⟩ := hb.y
  obtain ⟨z0, z1, k, hk⟩ := hb.z
  unfold On at hi hj hk
  refine ⟨b, e, ⟨x0, x1⟩, ⟨y0, y1⟩, ⟨z0, z1⟩, i, j, k, ?_, ?_, ?_⟩
  · rw [← sub_sub]; exact hi
  · rw [← sub_sub]; exact hj
  · rw [← sub_sub]; exact hk

/-- C153: the band structure that is read has the mesh of the file; the energies of each element of the file, twice the numbers in Hartree, are those of the
point of the mesh with the wavevector of the element, and each point of the mesh has the energies of an element with its wavevector.  The crystal
coordinates `q` of the elements are known by the Cartesian coordinates in the file.  What is missing: lists of wavevectors that are not a mesh are not
always refused, see below. -/
theorem C153_bands_partial {ε : Rat} (hε : ε ≤ 1 / 10000000000) {n : V3 Nat} (hx : 1 ≤ n.x ∧ n.x ≤ 1000) (hy : 1 ≤ n.y ∧ n.y ≤ 1000)
    (hz : 1 ≤ n.z ∧ n.z ≤ 1000) {o : V3 Rat} {f : XmlBands} {inverse : M3 → M3}
    (hinv : ∀ v, (inverse f.recCell).mulVec (f.recCell.mulVec v) = v)
    (hspin : f.lsda = false ∧ f.noncolin = false) (hmp : f.monkhorstPack = false) (hnks : f.nks = f.ks.length)
    (hbnd : ∀ e ∈ f.ks, e.eigenvalues.length = f.nbnd)
    {q : KsEnergies → V3 Rat} (hq : ∀ e ∈ f.ks, e.k = f.recCell.mulVec (q e)) (hmesh : IsMesh ε n o (f.ks.map q)) :
    ∃ (s : Points) (en : Int → Option (List Rat)), xmlBands inverse f = .ok (s, en) ∧ s.mesh = ⟨n.x, n.y, n.z⟩ ∧ s.numPoints = n.x * n.y * n.z ∧
      (∀ e ∈ f.ks, ∃ ik : Int, 0 ≤ ik ∧ ik < (n.x : Int) * n.y * n.z ∧ en ik = some (e.eigenvalues.map fun x => x * 2) ∧
        ∃ p, s.getPointCoordinates ik = .ok p ∧ SamePoint (2 * ε) p (q e)) ∧
      (∀ ik : Int, 0 ≤ ik → ik < (n.x : Int) * n.y * n.z → ∃ e ∈ f.ks, en ik = some (e.eigenvalues.map fun x => x * 2) ∧
        ∃ p, s.getPointCoordinates ik = .ok p ∧ SamePoint (2 * ε) p (q e)) := by
  set rows : List (V3 Rat × List Rat) := f.ks.map fun e => (q e, e.eigenvalues.map fun x => x * 2) with hrows
  have hr : xmlRows inverse f f.ks = .ok rows := by
    rw [xmlRows_ok hbnd, hrows]
    congr 1
    apply List.map_congr_left
    intro e he
    rw [hq e he, hinv]
  have hfst : rows.map Prod.fst = f.ks.map q := by
    rw [hrows, List.map_map]
    rfl
  obtain ⟨b, s, en, h1, h2, h3, h4, h5, h6, h7, h8, h9, h10⟩ := fill_mesh (rows := rows) hε ⟨hx, hy, hz⟩ (by rw [hfst]; exact hmesh)
  have hco : ∀ ik, s.getPointCoordinates ik = .ok (meshCoordinates (meshInt n) b ik) := by
    intro ik
    unfold Points.getPointCoordinates
    rw [h6, h4, h5]
    rfl
  refine ⟨s, en, ?_, h4, h7, ?_, ?_⟩
  · unfold xmlBands
    rw [hmp, hspin.1, hspin.2, hnks, hr]
    simp only [Bool.false_eq_true, if_false, lt_irrefl, Nat.sub_self, List.replicate_zero, Outcome.bind_eq, Bool.or_false]
    show ((findMesh (List.map Prod.fst (rows ++ []))).bind _) = _
    rw [List.append_nil, h1]
    show ((setMesh (meshInt n) b).bind _) = _
    rw [h3]
    show ((xmlFill s rows fun _ => none).bind _) = _
    rw [h8]
    rfl
  · intro e he
    obtain ⟨ik, a1, a2, a3, a4⟩ := h9 (q e, e.eigenvalues.map fun x => x * 2) (List.mem_map.mpr ⟨e, he, rfl⟩)
    exact ⟨ik, a1, a2, a3, _, hco ik, a4⟩
  · intro ik b1 b2
    obtain ⟨r, hr', a3, a4⟩ := h10 ik b1 b2
    obtain ⟨e, he, rfl⟩ := List.mem_map.mp hr'
    exact ⟨e, he, a3, _, hco ik, a4⟩

/-- C153: files of calculations with spin and files with a Monkhorst-Pack mesh are refused. -/
theorem C153_refused (inverse : M3 → M3) {f : XmlBands} (hnks : f.nks = f.ks.length) (hbnd : ∀ e ∈ f.ks, e.eigenvalues.length = f.nbnd)
    (h : f.lsda = true ∨ f.noncolin = true ∨ f.monkhorstPack = true) : xmlBands inverse f = .error := by
  unfold xmlBands
  by_cases hm : f.monkhorstPack = true
  · rw [if_pos hm]
  · rw [if_neg hm, hnks, if_neg (lt_irrefl _), xmlRows_ok hbnd]
    show (if _ then _ else _) = _
    rw [if_pos]
    rcases h with h | h | h
    · simp [h]
    · simp [h]
    · exact absurd h hm

/-- The unit matrix. -/
def unitM : M3 := ⟨⟨1, 0, 0⟩, ⟨0, 1, 0⟩, ⟨0, 0, 1⟩⟩

theorem unitM_mulVec (v : V3 Rat) : unitM.mulVec v = v := by
  cases v
  simp [unitM, M3.mulVec, V3.dot]

/-- The reciprocal cell with edges of length two. -/
def twoM : M3 := ⟨⟨2, 0, 0⟩, ⟨0, 2, 0⟩, ⟨0, 0, 2⟩⟩
def halfM : M3 := ⟨⟨1 / 2, 0, 0⟩, ⟨0, 1 / 2, 0⟩, ⟨0, 0, 1 / 2⟩⟩

/-- A file with the mesh of two points, in the order second, first, away from the unit cell and with a rounded coordinate. -/
def sampleXml : XmlBands :=
  { lsda := false, noncolin := false, nbnd := 2, nks := 2, monkhorstPack := false, recCell := twoM
    ks := [⟨⟨-1, 0, 0⟩, [1, 2]⟩, ⟨⟨2 / 100000000000, 0, 2⟩, [3, 4]⟩] }

/-- The hypotheses hold for the file above. -/
example : ∃ (s : Points) (en : Int → Option (List Rat)), xmlBands (fun _ => halfM) sampleXml = .ok (s, en) ∧ s.mesh = ⟨2, 1, 1⟩ ∧
    ∀ ik : Int, 0 ≤ ik → ik < 2 → (en ik).isSome := by
  have hM : IsMesh (1 / 10000000000) ⟨2, 1, 1⟩ ⟨0, 0, 0⟩ (sampleXml.ks.map fun e => halfM.mulVec e.k) := by
    refine ⟨by simp [sampleXml], ?_⟩
    intro a b c ha hb hc
    simp only at ha hb hc
    have hb0 : b = 0 := by omega
    have hc0 : c = 0 := by omega
    subst hb0 hc0
    interval_cases a
    · refine ⟨_, List.mem_cons_of_mem _ List.mem_cons_self, ⟨0, ?_⟩, ⟨0, ?_⟩, ⟨1, ?_⟩⟩ <;>
        norm_num [gridPoint, halfM, M3.mulVec, V3.dot, abs_le]
    · refine ⟨_, List.mem_cons_self, ⟨-1, ?_⟩, ⟨0, ?_⟩, ⟨0, ?_⟩⟩ <;>
        norm_num [gridPoint, halfM, M3.mulVec, V3.dot, abs_le]
  obtain ⟨s, en, h1, h2, -, -, h5⟩ := C153_bands_partial (inverse := fun _ => halfM) (f := sampleXml) (n := ⟨2, 1, 1⟩) (o := ⟨0, 0, 0⟩)
    (ε := 1 / 10000000000) le_rfl (by simp) (by simp) (by simp)
    (by intro v; cases v; simp [sampleXml, halfM, twoM, M3.mulVec, V3.dot])
    ⟨rfl, rfl⟩ rfl rfl (by simp [sampleXml]) (q := fun e => halfM.mulVec e.k)
    (by intro e he; rcases e with ⟨⟨x, y, z⟩, l⟩; simp [sampleXml, halfM, twoM, M3.mulVec, V3.dot]) hM
  refine ⟨s, en, h1, h2, ?_⟩
  intro ik a b
  obtain ⟨e, -, h, -⟩ := h5 ik a (by simpa using b)
  rw [h]
  rfl

/-- Three points that are not equally spaced. -/
def unevenXml : XmlBands :=
  { lsda := false, noncolin := false, nbnd := 1, nks := 3, monkhorstPack := false, recCell := unitM
    ks := [⟨⟨0, 0, 0⟩, [1]⟩, ⟨⟨1 / 3, 0, 0⟩, [2]⟩, ⟨⟨7 / 10, 0, 0⟩, [3]⟩] }

theorem findMesh1_zero (m : Nat) : findMesh1 (List.replicate (m + 1) 0) = .ok (1, 0) := by
  have h : meshSet (List.replicate (m + 1) 0) = [0] := by
    unfold meshSet
    rw [List.map_replicate, List.toFinset_replicate_of_ne_zero (by omega)]
    simp
  unfold findMesh1
  rw [h]
  simp [meshSingle, eps6]

theorem floor_unit {x : Rat} (h0 : 0 ≤ x) (h1 : x < 1) : ⌊x⌋ = 0 := by
  rw [Int.floor_eq_iff]
  constructor
  · simpa using h0
  · simpa using h1

theorem findMesh1_uneven : findMesh1 [0, 1 / 3, 7 / 10] = .ok (3, 0) := by
  have h : meshSet [0, 1 / 3, 7 / 10] = [0, 1 / 3, 7 / 10] := by
    unfold meshSet
    have e : [0, 1 / 3, 7 / 10].map (fun x : Rat => x - (⌊x⌋ : Int)) = [0, 1 / 3, 7 / 10] := by
      simp only [List.map_cons, List.map_nil]
      rw [floor_unit (x := 0) (by norm_num) (by norm_num), floor_unit (x := 1 / 3) (by norm_num) (by norm_num),
        floor_unit (x := 7 / 10) (by norm_num) (by norm_num)]
      norm_num
    rw [e, List.toFinset_sort]
    · norm_num
    · norm_num
  have hd : meshDelta 0 [0, 1 / 3, 7 / 10] = 1 / 3 := by
    unfold meshDelta
    norm_num [List.find?, eps6]
  have hs : meshSingle 0 [0, 1 / 3, 7 / 10] = false := by
    unfold meshSingle
    norm_num [eps6]
  unfold findMesh1
  rw [h]
  simp only [hs, hd]
  have hc : cround (1 / (1 / 3) + 1 / 10) = 3 := by
    apply cround_near (n := 3) <;> norm_num
  rw [hc]
  rfl

theorem cround_int' {x : Rat} {j : Int} (h1 : (j : Rat) - 1 / 2 < x) (h2 : x < (j : Rat) + 1 / 2) : cround x = j := by
  unfold cround
  split
  · rw [Int.floor_eq_iff]; constructor <;> linarith
  · rw [Int.ceil_eq_iff]; constructor <;> linarith

/-- C153 is violated for lists that are not a mesh: the differences with respect to the mesh are compared with their sign, so that three points that are not
equally spaced are accepted, and the energies at `7/10` become those of the point `2/3`. -/
theorem C153_violated_uneven : ∃ (s : Points) (en : Int → Option (List Rat)), xmlBands (fun _ => unitM) unevenXml = .ok (s, en) ∧
    en 2 = some [6] ∧ s.getPointCoordinates 2 = .ok ⟨2 / 3, 0, 0⟩ := by
  have hr : xmlRows (fun _ => unitM) unevenXml unevenXml.ks = .ok [(⟨0, 0, 0⟩, [2]), (⟨1 / 3, 0, 0⟩, [4]), (⟨7 / 10, 0, 0⟩, [6])] := by
    rw [xmlRows_ok (by simp [unevenXml])]
    simp only [unevenXml, List.map_cons, List.map_nil, unitM_mulVec]
    norm_num
  have hm : findMesh [⟨0, 0, 0⟩, ⟨1 / 3, 0, 0⟩, ⟨7 / 10, 0, 0⟩] = .ok (⟨3, 1, 1⟩, ⟨0, 0, 0⟩) := by
    unfold findMesh
    simp only [List.map_cons, List.map_nil]
    rw [findMesh1_uneven, show ([0, 0, 0] : List Rat) = List.replicate (2 + 1) 0 from rfl, findMesh1_zero]
    rfl
  obtain ⟨s, hs, s1, s2, s3⟩ : ∃ s : Points, setMesh ⟨3, 1, 1⟩ ⟨0, 0, 0⟩ = .ok s ∧ s.mesh = ⟨3, 1, 1⟩ ∧ s.offset = ⟨0, 0, 0⟩ ∧ s.explicitlyStored = false := by
    unfold setMesh
    norm_num
  have c0 : cround 0 = 0 := cround_int' (by norm_num) (by norm_num)
  have i0 : s.getIndex ⟨0, 0, 0⟩ = .ok 0 := by
    unfold Points.getIndex Points.isPointStored isPointStoredMesh
    rw [s3, s1, s2]
    norm_num [c0, imod, eps6]
  have i1 : s.getIndex ⟨1 / 3, 0, 0⟩ = .ok 1 := by
    have c1 : cround 1 = 1 := cround_int' (by norm_num) (by norm_num)
    unfold Points.getIndex Points.isPointStored isPointStoredMesh
    rw [s3, s1, s2]
    norm_num [c0, c1, show imod 1 3 = 1 by decide, show imod 2 3 = 2 by decide, show imod 0 1 = 0 by decide, eps6]
  have i2 : s.getIndex ⟨7 / 10, 0, 0⟩ = .ok 2 := by
    have c1 : cround (21 / 10) = 2 := cround_int' (by norm_num) (by norm_num)
    unfold Points.getIndex Points.isPointStored isPointStoredMesh
    rw [s3, s1, s2]
    norm_num [c0, c1, show imod 1 3 = 1 by decide, show imod 2 3 = 2 by decide, show imod 0 1 = 0 by decide, eps6]
  refine ⟨s, fun j => if j = 2 then some [6] else if j = 1 then some [4] else if j = 0 then some [2] else none, ?_, rfl, ?_⟩
  · unfold xmlBands
    rw [hr]
    show ((findMesh [⟨0, 0, 0⟩, ⟨1 / 3, 0, 0⟩, ⟨7 / 10, 0, 0⟩]).bind _) = _
    rw [hm]
    show ((setMesh ⟨3, 1, 1⟩ ⟨0, 0, 0⟩).bind fun s =>
      (xmlFill s [(⟨0, 0, 0⟩, [2]), (⟨1 / 3, 0, 0⟩, [4]), (⟨7 / 10, 0, 0⟩, [6])] fun _ => none).bind fun en => .ok (s, en)) = _
    rw [hs]
    simp only [xmlFill, i0, i1, i2, Outcome.bind_eq, Outcome.bind]
  · unfold Points.getPointCoordinates
    rw [s3, s1, s2]
    simp only [meshCoordinates, show Int.tdiv 2 (3 * 1) = 0 by decide, show (2 : Int) - 0 * 3 * 1 = 2 by decide, show Int.tdiv 2 3 = 0 by decide,
      show imod 2 3 = 2 by decide]
    norm_num

end Verif.Props
