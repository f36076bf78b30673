import Verif.Proofs.Phono3py

/-! Lemmas on the weights and on the file of displacements of phono3py. -/
namespace Verif.Props
open Verif.Model Verif.Spec

/-! ## Weights -/

theorem p3WeightLoop_eq (r : Vec3) (l : List Vec3) : ∀ k : Nat,
    ((∃ g ∈ l, 1.0e-6 < wsCk r g) → p3WeightLoop r l k = 0) ∧
    ((∀ g ∈ l, wsCk r g ≤ 1.0e-6) → p3WeightLoop r l k =
      1 / ((k + (open scoped Classical in l.countP fun g => |wsCk r g| < 1.0e-6) : Nat) : ℝ)) := by
  induction l with
  | nil => intro k; simp [p3WeightLoop]
  | cons x l ih =>
    intro k
    simp only [p3WeightLoop]
    by_cases hx : wsCk r x > 1.0e-6
    · have hx' : vdot r x - vdot x x / 2 > 1.0e-6 := hx
      rw [if_pos hx']
      refine ⟨fun _ => rfl, fun h => ?_⟩
      have := h x (by simp)
      linarith
    · have hx' : ¬ (vdot r x - vdot x x / 2 > 1.0e-6) := hx
      rw [if_neg hx']
      constructor
      · rintro ⟨g, hg, hgt⟩
        rcases List.mem_cons.mp hg with rfl | hg
        · exact absurd hgt hx
        · exact (ih _).1 ⟨g, hg, hgt⟩
      · intro h
        rw [(ih _).2 fun g hg => h g (List.mem_cons_of_mem _ hg)]
        congr 2
        by_cases hc : |wsCk r x| < 1.0e-6
        · have hc' : |vdot r x - vdot x x / 2| < 1.0e-6 := hc
          rw [if_pos hc', List.countP_cons_of_pos (by simpa using hc)]
          omega
        · have hc' : ¬ |vdot r x - vdot x x / 2| < 1.0e-6 := hc
          rw [if_neg hc', List.countP_cons_of_neg (by simpa using hc)]

/-- The comparison of a neighbour is half the difference of the squared distances. -/
theorem p3Ck_eq (d : Mat3) (t : Vec3) (N n g : V3 Int) :
    wsCk (fun i => latVec d n i + t i) (latVec (p3Super d N) g) =
      (dist2 (colsOf d) t (asFun n) - dist2 (colsOf d) t (fun k => asFun n k - asFun N k * asFun g k)) / 2 := by
  simp only [dist2, image, Fin.sum_univ_three, colsOf, asFun, wsCk, vdot, latVec, p3Super, Matrix.cons_val_zero, Matrix.cons_val_one,
    Matrix.cons_val, Int.cast_sub, Int.cast_mul]
  simp only [if_true, show ¬ ((1 : Fin 3) = 0) by decide, show ¬ ((2 : Fin 3) = 0) by decide, show ¬ ((2 : Fin 3) = 1) by decide, if_false]
  ring

theorem p3Super_norm (d : Mat3) (N g : V3 Int) : vdot (latVec (p3Super d N) g) (latVec (p3Super d N) g) =
    dist2 (colsOf d) 0 (fun k => asFun N k * asFun g k) := by
  simp only [dist2, image, Fin.sum_univ_three, colsOf, asFun, vdot, latVec, p3Super, Matrix.cons_val_zero, Matrix.cons_val_one,
    Matrix.cons_val, Int.cast_mul, Pi.zero_apply]
  simp only [if_true, show ¬ ((1 : Fin 3) = 0) by decide, show ¬ ((2 : Fin 3) = 0) by decide, show ¬ ((2 : Fin 3) = 1) by decide, if_false]
  ring

theorem asFun_inj {a b : V3 Int} (h : asFun a = asFun b) : a = b := v3f_inj h

theorem asFun_mk (g : Fin 3 → ℤ) : asFun ⟨g 0, g 1, g 2⟩ = g := by
  funext k; fin_cases k <;> rfl

theorem asFun_le (g : V3 Int) : (∀ k, |asFun g k| ≤ 2) ↔ (-2 ≤ g.x ∧ g.x ≤ 2) ∧ (-2 ≤ g.y ∧ g.y ≤ 2) ∧ (-2 ≤ g.z ∧ g.z ≤ 2) := by
  constructor
  · intro h
    exact ⟨abs_le.mp (h 0), abs_le.mp (h 1), abs_le.mp (h 2)⟩
  · rintro ⟨h0, h1, h2⟩ k
    fin_cases k
    · exact abs_le.mpr h0
    · exact abs_le.mpr h1
    · exact abs_le.mpr h2

theorem p3Weight_eq {A : Nat} (d : Mat3) (pos : Fin A → Vec3) (N n : V3 Int) (b b' : Fin A)
    (h : ClearDistances (colsOf d) (fun i => pos b' i - pos b i) (asFun N)) :
    p3Weight d pos N (latVec d n) b b' = imageWeight (colsOf d) (fun i => pos b' i - pos b i) (asFun N) (asFun n) := by
  classical
  obtain ⟨t, ht⟩ : ∃ t : Vec3, t = fun i => pos b' i - pos b i := ⟨_, rfl⟩
  rw [← ht] at h ⊢
  have hr : (fun i => latVec d n i - pos b i + pos b' i) = fun i => latVec d n i + t i := by
    funext i; rw [ht]; ring
  unfold p3Weight imageWeight
  rw [hr]
  have hck := p3Ck_eq d t N n
  have hmem (g : V3 Int) (hg : ∀ k, |asFun g k| ≤ 2) (h0 : asFun g ≠ 0) : latVec (p3Super d N) g ∈ p3Rws d N := by
    obtain ⟨h1, h2, h3⟩ := (asFun_le g).mp hg
    refine (mem_rws _ _).mpr ⟨g, h1, h2, h3, rfl, ?_⟩
    rw [p3Super_norm]
    exact h.apart _ h0
  split_ifs with hex
  · obtain ⟨g, hg, hlt⟩ := hex
    refine (p3WeightLoop_eq _ _ 1).1 ⟨latVec (p3Super d N) ⟨g 0, g 1, g 2⟩, hmem _ (by rw [asFun_mk]; exact hg) ?_, ?_⟩
    · rw [asFun_mk]
      rintro rfl
      simp at hlt
    · rw [hck, asFun_mk]
      rcases h.tie (asFun n) g hg with e | e
      · rw [e] at hlt; exact absurd hlt (lt_irrefl _)
      · rw [abs_of_pos (by linarith)] at e
        norm_num at e ⊢
        linarith
  · push Not at hex
    rw [(p3WeightLoop_eq _ _ 1).2]
    · congr 2
      -- the count
      have hP (g : V3 Int) (hg : g ∈ zBox ⟨2, 2, 2⟩) :
          (|wsCk (fun i => latVec d n i + t i) (latVec (p3Super d N) g)| < 1.0e-6 ∧
            vdot (latVec (p3Super d N) g) (latVec (p3Super d N) g) > 1.0e-6) ↔
          (asFun g ≠ 0 ∧ dist2 (colsOf d) t (fun k => asFun n k - asFun N k * asFun g k) = dist2 (colsOf d) t (asFun n)) := by
        have hg' : ∀ k, |asFun g k| ≤ 2 := (asFun_le g).mpr (by
          have := (mem_zBox _ _).mp hg
          simpa using this)
        rw [hck, p3Super_norm]
        constructor
        · rintro ⟨h1, h2⟩
          refine ⟨?_, ?_⟩
          · intro h0
            rw [h0] at h2
            simp [dist2, image] at h2
            norm_num at h2
          · rcases h.tie (asFun n) (asFun g) hg' with e | e
            · exact e
            · rw [abs_div, div_lt_iff₀ (by norm_num)] at h1
              norm_num at h1 e
              linarith
        · rintro ⟨h1, h2⟩
          refine ⟨?_, h.apart _ h1⟩
          rw [h2]
          norm_num
      have hcount : (p3Rws d N).countP (fun g => decide (|wsCk (fun i => latVec d n i + t i) g| < 1.0e-6)) =
          ((zBox ⟨2, 2, 2⟩).filter fun g => decide (asFun g ≠ 0 ∧
            dist2 (colsOf d) t (fun k => asFun n k - asFun N k * asFun g k) = dist2 (colsOf d) t (asFun n))).length := by
        unfold p3Rws rwsList
        rw [List.countP_filter, List.countP_map, ← List.countP_eq_length_filter]
        refine List.countP_congr fun g hg => ?_
        simp only [Function.comp_apply, Bool.and_eq_true, decide_eq_true_eq]
        exact hP g hg
      have hfin : (equalCopies (colsOf d) t (asFun N) (asFun n)).card =
          1 + ((zBox ⟨2, 2, 2⟩).filter fun g => decide (asFun g ≠ 0 ∧
            dist2 (colsOf d) t (fun k => asFun n k - asFun N k * asFun g k) = dist2 (colsOf d) t (asFun n))).length := by
        rw [← List.toFinset_card_of_nodup ((nodup_zBox _).filter _)]
        have h0 : (0 : Fin 3 → ℤ) ∈ equalCopies (colsOf d) t (asFun N) (asFun n) := by
          unfold equalCopies
          simp
        rw [← Finset.card_erase_add_one h0, add_comm]
        congr 1
        refine (Finset.card_bij (fun g _ => asFun g) ?_ ?_ ?_).symm
        · intro g hg
          rw [List.mem_toFinset, List.mem_filter, decide_eq_true_eq, mem_zBox] at hg
          obtain ⟨hb, h1, h2⟩ := hg
          have hg' : ∀ k, |asFun g k| ≤ 2 := (asFun_le g).mpr (by simpa using hb)
          rw [Finset.mem_erase]
          refine ⟨h1, ?_⟩
          unfold equalCopies
          rw [Finset.mem_filter, Fintype.mem_piFinset]
          exact ⟨fun k => Finset.mem_Icc.mpr (abs_le.mp (hg' k)), h2⟩
        · intro g _ g' _ e
          exact asFun_inj e
        · intro g hg
          rw [Finset.mem_erase] at hg
          unfold equalCopies at hg
          rw [Finset.mem_filter, Fintype.mem_piFinset] at hg
          obtain ⟨h1, h2, h3⟩ := hg
          refine ⟨⟨g 0, g 1, g 2⟩, ?_, asFun_mk g⟩
          rw [List.mem_toFinset, List.mem_filter, decide_eq_true_eq, mem_zBox, asFun_mk]
          exact ⟨⟨Finset.mem_Icc.mp (h2 0), Finset.mem_Icc.mp (h2 1), Finset.mem_Icc.mp (h2 2)⟩, h1, h3⟩
      rw [hfin, ← hcount]
    · intro x hx
      obtain ⟨g, h1, h2, h3, rfl, -⟩ := (mem_rws _ _).mp hx
      have hx' : latVec (p3Super d N) g = latVec (p3Super d N) g := rfl
      have := hex (asFun g) ((asFun_le g).mpr ⟨h1, h2, h3⟩)
      rw [hck]
      norm_num
      linarith

/-! ## The file -/

theorem order_length {N : V3 Int} {order : List (V3 Int)} (ho : IsOrder N order) :
    (0 < N.x ∧ 0 < N.y ∧ 0 < N.z) ∧ (order.length : Int) = N.x * N.y * N.z := by
  classical
  have hm := (ho.mem ⟨0, 0, 0⟩).mp (List.mem_of_getElem? ho.home)
  simp only [le_refl, true_and] at hm
  refine ⟨hm, ?_⟩
  have hc : order.length = (Finset.Ico (0 : Int) N.x ×ˢ (Finset.Ico (0 : Int) N.y ×ˢ Finset.Ico (0 : Int) N.z)).card := by
    rw [← List.toFinset_card_of_nodup ho.nodup]
    refine Finset.card_bij (fun n _ => (n.x, n.y, n.z)) ?_ ?_ ?_
    · intro n hn
      have := (ho.mem n).mp (List.mem_toFinset.mp hn)
      simpa [Finset.mem_product] using this
    · intro n _ n' _ e
      cases n; cases n'
      simpa using e
    · rintro ⟨x, y, z⟩ hx
      refine ⟨⟨x, y, z⟩, List.mem_toFinset.mpr ((ho.mem _).mpr ?_), rfl⟩
      simpa [Finset.mem_product] using hx
  rw [hc, Finset.card_product, Finset.card_product, Int.card_Ico, Int.card_Ico, Int.card_Ico]
  push_cast
  rw [Int.toNat_of_nonneg (by omega), Int.toNat_of_nonneg (by omega), Int.toNat_of_nonneg (by omega)]
  ring

theorem readGrid_skip (last : YamlLine) (pre rest : List YamlLine) (h : ∀ l ∈ pre, l.has "supercell_matrix:" = false) :
    readGrid last (pre ++ rest) = readGrid last rest := by
  induction pre with
  | nil => rfl
  | cons l pre ih =>
    simp only [List.cons_append, readGrid]
    rw [if_neg (by rw [h l List.mem_cons_self]; simp)]
    exact ih fun l hl => h l (List.mem_cons_of_mem _ hl)

theorem readGrid_val (last sm g0 g1 g2 : YamlLine) (rest : List YamlLine) (N : V3 Int) (h : sm.has "supercell_matrix:" = true)
    (h0 : ∃ w w' more, g0.tok = w :: w' :: .int N.x :: .int 0 :: .int 0 :: more)
    (h1 : ∃ w w' more, g1.tok = w :: w' :: .int 0 :: .int N.y :: .int 0 :: more)
    (h2 : ∃ w w' more, g2.tok = w :: w' :: .int 0 :: .int 0 :: .int N.z :: more) :
    readGrid last (sm :: g0 :: g1 :: g2 :: rest) = .ok (some N) := by
  obtain ⟨_, _, _, h0⟩ := h0
  obtain ⟨_, _, _, h1⟩ := h1
  obtain ⟨_, _, _, h2⟩ := h2
  simp only [readGrid]
  rw [if_pos h]
  simp [gridRow, YamlLine.int, h0, h1, h2, Outcome.bind_eq]

theorem distanceUnit_val (bohr unit : ℝ) (lines : List YamlLine) (last : YamlLine)
    (h : UnitOfLength bohr unit lines) (hl : (∀ x ∈ lines, x.has "length" = false) → last.has "length" = false) :
    distanceUnit bohr (lines ++ [last]) = unit := by
  have skip (pre rest : List YamlLine) (hp : ∀ x ∈ pre, x.has "length" = false) :
      distanceUnit bohr (pre ++ rest) = distanceUnit bohr rest := by
    induction pre with
    | nil => rfl
    | cons l pre ih =>
      simp only [List.cons_append, distanceUnit]
      rw [if_neg (by rw [hp l List.mem_cons_self]; simp)]
      exact ih fun x hx => hp x (List.mem_cons_of_mem _ hx)
  rcases h with ⟨pre, l, post, rfl, hp, h1, h2⟩ | ⟨h1, h2⟩
  · rw [List.append_assoc, skip _ _ hp]
    simp only [List.cons_append, distanceUnit]
    rw [if_pos h1]
    rcases h2 with ⟨h2, h3⟩ | ⟨h2, h3⟩
    · rw [if_pos h2, h3]
    · rw [if_neg (by rw [h2]; simp), h3]
  · rw [skip _ _ h1]
    simp only [distanceUnit]
    rw [if_neg (by rw [hl h1]; simp), h2]

theorem readSup_skip (pre rest : List YamlLine) (s : SupState) (hs : s.read = false)
    (h : ∀ l ∈ pre, l.has "supercell:" = false ∧ l.has "phonon" = false) : readSup (pre ++ rest) s = readSup rest s := by
  induction pre with
  | nil => rfl
  | cons l pre ih =>
    obtain ⟨h1, h2⟩ := h l List.mem_cons_self
    simp only [List.cons_append, readSup]
    simp [h1, h2, hs, Outcome.bind_eq]
    exact ih fun x hx => h x (List.mem_cons_of_mem _ hx)

theorem vec_val (l : YamlLine) (p : Fin 3 → ℝ) (h : ∃ w w' more, l.tok = w :: w' :: .num (p 0) :: .num (p 1) :: .num (p 2) :: more) :
    l.vec = .ok p := by
  obtain ⟨w, w', more, h⟩ := h
  simp only [YamlLine.vec, YamlLine.num, h, Outcome.bind_eq]
  simp only [List.getElem?_cons_succ, List.getElem?_cons_zero, Outcome.bind_ok, Outcome.ok.injEq]
  funext k
  fin_cases k <;> rfl

theorem readSup_coords (body rest : List YamlLine) (ps : List (Fin 3 → ℝ)) (h : CoordLines body ps) (pos : List (Fin 3 → ℝ))
    (lat : Nat → Fin 3 → ℝ) : readSup (body ++ rest) ⟨pos, lat, 3, true⟩ = readSup rest ⟨pos ++ ps, lat, 3, true⟩ := by
  induction h generalizing pos with
  | nil => simp
  | other l ls ps h1 h2 h3 h ih =>
    simp only [List.cons_append, readSup]
    rw [if_neg (by rw [h3]; simp)]
    simp only [ite_self, h1, h2, Outcome.bind_eq, Bool.false_eq_true, false_and, if_false, lt_irrefl, Outcome.bind_ok]
    exact ih pos
  | coord l ls p ps w w' more h0 h1 h2 h3 h ih =>
    simp only [List.cons_append, readSup]
    rw [if_neg (by rw [h3]; simp), vec_val l p ⟨w, w', more, h0⟩]
    simp only [ite_self, h1, h2, Outcome.bind_eq, Bool.false_eq_true, false_and, if_false, lt_irrefl, Outcome.bind_ok, and_self, if_true]
    rw [ih]
    simp [List.append_assoc]

theorem readSup_head (f : DispFile) (rest : List YamlLine) (v : Fin 3 → Fin 3 → ℝ)
    (hs : f.sup.has "supercell:" = true ∧ f.sup.has "phonon" = false ∧ f.sup.has "coordinates:" = false ∧ f.sup.has "lattice:" = false)
    (hl : f.lat.has "lattice:" = true ∧ f.lat.has "phonon" = false ∧ f.lat.has "coordinates:" = false)
    (hv : ∀ k, (∃ w w' more, (f.a k).tok = w :: w' :: .num (v k 0) :: .num (v k 1) :: .num (v k 2) :: more) ∧
      (f.a k).has "lattice:" = false ∧ (f.a k).has "phonon" = false ∧ (f.a k).has "coordinates:" = false) :
    readSup (f.sup :: f.lat :: f.a 0 :: f.a 1 :: f.a 2 :: rest) ⟨[], fun _ _ => 0, 3, false⟩ =
      readSup rest ⟨[], Function.update (Function.update (Function.update (fun _ _ => 0) 0 (v 0)) 1 (v 1)) 2 (v 2), 3, true⟩ := by
  obtain ⟨s1, s2, s3, s4⟩ := hs
  obtain ⟨l1, l2, l3⟩ := hl
  obtain ⟨t0, a0, b0, c0⟩ := hv 0
  obtain ⟨t1, a1, b1, c1⟩ := hv 1
  obtain ⟨t2, a2, b2, c2⟩ := hv 2
  have e0 := vec_val _ _ t0
  have e1 := vec_val _ _ t1
  have e2 := vec_val _ _ t2
  simp [readSup, s1, s2, s3, s4, l1, l2, l3, a0, b0, c0, a1, b1, c1, a2, b2, c2, e0, e1, e2, Outcome.bind_eq]

/-- What the reader takes from a file that describes the supercell. -/
theorem readDisp {A : Nat} (f : DispFile) (N : V3 Int) (d : Mat3) (frac : Fin A → Fin 3 → ℝ) (order : List (V3 Int)) (bohr : ℝ)
    (h : f.Describes N d frac order bohr) (newline : Bool) (hn : newline = true ∨ f.post ≠ []) :
    ∃ (v : Fin 3 → Fin 3 → ℝ) (lat : Nat → Fin 3 → ℝ) (unit : ℝ), (∀ k i, v k i * unit = asFun N k * d i k) ∧
      lat 0 = v 0 ∧ lat 1 = v 1 ∧ lat 2 = v 2 ∧
      readGrid (endLine newline f.lines) (f.lines ++ [endLine newline f.lines]) = .ok (some N) ∧
      distanceUnit bohr (f.lines ++ [endLine newline f.lines]) = unit ∧
      readSup (f.lines ++ [endLine newline f.lines]) ⟨[], fun _ _ => 0, 3, false⟩ =
        .ok ⟨(List.finRange A).flatMap fun b => order.map fun c k => (frac b k + asFun c k) / asFun N k, lat, 3, true⟩ := by
  obtain ⟨v, ⟨unit, hu, hv⟩, ha⟩ := h.vectors
  refine ⟨v, Function.update (Function.update (Function.update (fun _ _ => 0) 0 (v 0)) 1 (v 1)) 2 (v 2), unit, hv, ?_, ?_, ?_, ?_, ?_, ?_⟩
  · simp
  · simp
  · simp
  · unfold DispFile.lines
    simp only [List.append_assoc, List.cons_append]
    rw [readGrid_skip _ _ _ h.before]
    refine readGrid_val _ _ _ _ _ _ _ h.matrix ?_ ?_ ?_
    · simpa using h.rows 0
    · simpa using h.rows 1
    · simpa using h.rows 2
  · refine distanceUnit_val bohr unit _ _ hu fun hall => ?_
    unfold endLine
    split_ifs
    · rfl
    · cases e : f.lines with
      | nil => rfl
      | cons x l =>
        rw [e] at hall
        rw [List.getLastD_cons]
        exact hall _ (List.getLastD_mem_cons)
  · have hsplit (x : YamlLine) : f.lines ++ [x] = (f.pre ++ (f.sm :: f.g 0 :: f.g 1 :: f.g 2 :: f.mid)) ++
        (f.sup :: f.lat :: f.a 0 :: f.a 1 :: f.a 2 :: (f.body ++ (f.post ++ [x]))) := by
      simp only [DispFile.lines, List.append_assoc, List.cons_append]
    rw [hsplit, readSup_skip _ _ _ rfl h.quiet, readSup_head f _ v h.sup h.lat ha, readSup_coords _ _ _ h.atoms]
    simp only [List.nil_append]
    rcases h.stop with hp | ⟨l, rest, hp, hl⟩
    · rcases hn with rfl | hn
      · rw [hp]
        simp [readSup, endLine, Outcome.bind_eq]
      · exact absurd hp hn
    · rw [hp]
      simp only [List.cons_append, readSup]
      rw [if_pos hl]

end Verif.Props
