import Verif.Proofs.Sheng
import Verif.Props.Coupling3Ph

/-!
# C149: three-phonon couplings from third-order force constants of ShengBTE
-/
namespace Verif.Props
open Verif.Model Verif.Spec

theorem numCells_div (bohr : ℝ) (hb : bohr ≠ 0) (cells : List (Fin 3 → ℝ)) :
    (distinctCells (cells.map fun c i => c i / bohr)).length = numCells cells := by
  classical
  have hinj : Function.Injective fun (c : Fin 3 → ℝ) (i : Fin 3) => c i / bohr := by
    intro c c' h
    funext i
    have h' : c i / bohr = c' i / bohr := congrFun h i
    rwa [div_left_inj' hb] at h'
  unfold numCells
  rw [← Set.ncard_image_of_injective _ hinj, ← List.toFinset_card_of_nodup (nodup_distinctCells _), ← Set.ncard_coe_finset]
  congr 1
  ext c
  simp [mem_distinctCells]

theorem parse_header {A : Nat} (bohr ryd : ℝ) (newline : Bool) (ts : List (Triplet A)) (hn : 27 * (ts.length : Int) ≤ intMax)
    (n : Nat) (hn' : n = ts.length) (rest : List (List FcToken)) (hr : ∀ l, readTriplets newline bohr ryd n ⟨rest, l⟩ = .ok (ts.map (toSheng bohr ryd))) :
    parseSheng A bohr ryd newline ([.int n] :: rest) =
      (let cells2 := distinctCells ((ts.map Triplet.cell2).map fun c i => c i / bohr)
      let cells3 := distinctCells ((ts.map Triplet.cell3).map fun c i => c i / bohr)
      let nb := A * 3
      let nr2 := cells2.length
      let nr3 := cells3.length
      let size := nb * nb * nb * nr2 * nr3
      (fillFc3 nb nr2 size A cells2 cells3 (ts.map (toSheng bohr ryd)) (fun _ => 0)).bind fun mem =>
      open Classical in if ∀ i1 i2 i3 i5 i4 : Nat, i1 < nb → i2 < nb → i3 < nb → i5 < nr3 → i4 < nr2 →
          fc3Address nb nr2 i1 i2 i3 i5 i4 < size then
        Coupling3Ph.make A nr2 nr3 (fun i1 i2 i3 i5 i4 => mem (fc3Address nb nr2 i1 i2 i3 i5 i4))
          (fun i r => cells2.getD r (fun _ => 0) i) (fun i r => cells3.getD r (fun _ => 0) i)
          (fun _ _ _ => 1) (fun _ _ _ => 1)
      else .ub) := by
  unfold parseSheng
  simp only [FcStream.next, Outcome.bind_eq]
  rw [if_neg (by omega)]
  have hc : cmul 27 (n : Int) = .ok (27 * n) := cmul_ok (by have : intMin ≤ 0 := by decide
                                                            omega) (by omega)
  rw [hc, Outcome.bind_ok, Int.toNat_natCast, hr, Outcome.bind_ok]
  have e2 : (ts.map (toSheng bohr ryd)).map ShengTriplet.pos2 = (ts.map Triplet.cell2).map fun c i => c i / bohr := by
    rw [List.map_map, List.map_map]; rfl
  have e3 : (ts.map (toSheng bohr ryd)).map ShengTriplet.pos3 = (ts.map Triplet.cell3).map fun c i => c i / bohr := by
    rw [List.map_map, List.map_map]; rfl
  rw [e2, e3]

theorem findIndexRow_ok (cells : List (Fin 3 → ℝ)) (p : Fin 3 → ℝ) (hp : p ∈ cells) : ∃ i, findIndexRow cells p = .ok i := by
  classical
  unfold findIndexRow
  cases hf : cells.findIdx? fun c => decide (norm3 (fun i => p i - c i) < 1.0e-12) with
  | none =>
    rw [List.findIdx?_eq_none_iff] at hf
    have := hf p hp
    simp only [sub_self, norm3_zero, decide_eq_false_iff_not] at this
    norm_num at this
  | some i => exact ⟨i, rfl⟩

theorem writeTriplet_total (nb nr2 size : Nat) (na : Int) (at3 : Nat → Int) (fc : Nat → ℝ) (i2 i3 : Nat) :
    ∀ (l : List (Int × Int × Int)) (mem : Int → ℝ), writeTriplet nb nr2 size na at3 fc i2 i3 l mem = .ub ∨
      ∃ m, writeTriplet nb nr2 size na at3 fc i2 i3 l mem = .ok m := by
  have hi (x : Int) : i32 x = .ub ∨ ∃ y, i32 x = .ok y := by
    unfold i32
    split_ifs
    · exact Or.inr ⟨_, rfl⟩
    · exact Or.inl rfl
  have hc (a b c d : Int) : compress2Indices a b c d = .ub ∨ ∃ y, compress2Indices a b c d = .ok y := by
    unfold compress2Indices cmul cadd
    rcases hi (a * d) with h | ⟨y, h⟩
    · left; rw [h]; rfl
    · rw [h]; exact hi _
  intro l
  induction l with
  | nil => exact fun mem => Or.inr ⟨mem, rfl⟩
  | cons c l ih =>
    intro mem
    obtain ⟨c1, c2, c3⟩ := c
    simp only [writeTriplet]
    rcases hc (at3 0) c1 na 3 with h | ⟨y1, h⟩
    · left; rw [h]; rfl
    rw [h]
    rcases hc (at3 1) c2 na 3 with h | ⟨y2, h⟩
    · left; rw [h]; rfl
    rw [h]
    rcases hc (at3 2) c3 na 3 with h | ⟨y3, h⟩
    · left; rw [h]; rfl
    rw [h]
    simp only [Outcome.bind_eq, Outcome.bind_ok]
    split_ifs
    · exact Or.inl rfl
    · exact ih _

theorem fillFc3_total (nb nr2 size : Nat) (na : Int) (cells2 cells3 : List (Fin 3 → ℝ)) : ∀ (ts : List ShengTriplet),
    (∀ t ∈ ts, t.pos2 ∈ cells2 ∧ t.pos3 ∈ cells3) → ∀ mem, fillFc3 nb nr2 size na cells2 cells3 ts mem = .ub ∨
      ∃ m, fillFc3 nb nr2 size na cells2 cells3 ts mem = .ok m := by
  intro ts
  induction ts with
  | nil => exact fun _ mem => Or.inr ⟨mem, rfl⟩
  | cons t ts ih =>
    intro h mem
    obtain ⟨h2, h3⟩ := h t List.mem_cons_self
    obtain ⟨i2, e2⟩ := findIndexRow_ok _ _ h2
    obtain ⟨i3, e3⟩ := findIndexRow_ok _ _ h3
    simp only [fillFc3]
    rw [e2, e3]
    simp only [Outcome.bind_eq, Outcome.bind_ok]
    rcases writeTriplet_total nb nr2 size na t.atoms t.fc i2 i3 directions mem with hw | ⟨m, hw⟩
    · left; rw [hw]; rfl
    · rw [hw]; exact ih (fun t ht => h _ (List.mem_cons_of_mem _ ht)) m

theorem fill_tensor {A : Nat} (bohr ryd : ℝ) (hb : bohr ≠ 0) (ts : List (Triplet A)) (i2 i3 : Triplet A → Nat) (nr2 : Nat)
    (cells2 cells3 : List (Fin 3 → ℝ)) (hl : cells3.length = nr2)
    (h2 : ∀ t ∈ ts, cells2[i2 t]? = some (toSheng bohr ryd t).pos2) (h3 : ∀ t ∈ ts, cells3[i3 t]? = some (toSheng bohr ryd t).pos3)
    (hd : ts.Pairwise fun t t' => ¬ t.same t')
    (n1 n2 n3 r3 r2 : Nat) (l1 : n1 < A * 3) (l2 : n2 < A * 3) (l3 : n3 < A * 3) (l4 : r3 < nr2) :
    applyUpdates (ts.flatMap fun t => tripletWrites bohr ryd (A * 3) nr2 t (i2 t) (i3 t) directions) (fun _ => 0)
      (fc3Address (A * 3) nr2 n1 n2 n3 r3 r2) =
    (ts.map fun t => if n1 / 3 = t.atom1 ∧ n2 / 3 = t.atom2 ∧ n3 / 3 = t.atom3 ∧ r3 = i3 t ∧ r2 = i2 t then
      t.phi ⟨n1 % 3, Nat.mod_lt _ (by norm_num)⟩ ⟨n2 % 3, Nat.mod_lt _ (by norm_num)⟩ ⟨n3 % 3, Nat.mod_lt _ (by norm_num)⟩ * (bohr ^ 3 / ryd)
      else 0).sum := by
  have hinj (c c' : Fin 3 → ℝ) (h : (fun i => c i / bohr) = fun i => c' i / bohr) : c = c' := by
    funext i
    have h' : c i / bohr = c' i / bohr := congrFun h i
    rwa [div_left_inj' hb] at h'
  -- which writes reach this place
  have hw : ∀ w ∈ ts.flatMap fun t => tripletWrites bohr ryd (A * 3) nr2 t (i2 t) (i3 t) directions,
      w.1 = fc3Address (A * 3) nr2 n1 n2 n3 r3 r2 → ∃ t ∈ ts, (n1 / 3 = t.atom1 ∧ n2 / 3 = t.atom2 ∧ n3 / 3 = t.atom3 ∧ r3 = i3 t ∧ r2 = i2 t) ∧
        w.2 = t.phi ⟨n1 % 3, Nat.mod_lt _ (by norm_num)⟩ ⟨n2 % 3, Nat.mod_lt _ (by norm_num)⟩ ⟨n3 % 3, Nat.mod_lt _ (by norm_num)⟩ * (bohr ^ 3 / ryd) := by
    intro w hw he
    obtain ⟨t, ht, hw⟩ := List.mem_flatMap.mp hw
    obtain ⟨c, hc, rfl⟩ := List.mem_map.mp hw
    obtain ⟨p1, p2, p3, p4, p5, p6⟩ := directions_range c hc
    obtain ⟨m1, b1, f1, g1, k1⟩ := atom_coord t.atom1 c.1 p1 p2
    obtain ⟨m2, b2, f2, g2, k2⟩ := atom_coord t.atom2 c.2.1 p3 p4
    obtain ⟨m3, b3, f3, g3, k3⟩ := atom_coord t.atom3 c.2.2 p5 p6
    simp only [f1, f2, f3] at he
    have li3 : i3 t < nr2 := by
      obtain ⟨h, -⟩ := List.getElem?_eq_some_iff.mp (h3 t ht)
      omega
    obtain ⟨rfl, rfl, rfl, rfl, rfl⟩ := fc3Address_inj _ _ _ _ _ _ _ _ _ _ _ _ b1 b2 b3 li3 l1 l2 l3 l4 he
    refine ⟨t, ht, ⟨g1, g2, g3, rfl, rfl⟩, ?_⟩
    have hk : (9 * c.1 + 3 * c.2.1 + c.2.2).toNat = 9 * (m1 % 3) + 3 * (m2 % 3) + m3 % 3 := by omega
    have hg := shengTriples_get ⟨m1 % 3, Nat.mod_lt _ (by norm_num)⟩ ⟨m2 % 3, Nat.mod_lt _ (by norm_num)⟩ ⟨m3 % 3, Nat.mod_lt _ (by norm_num)⟩
    simp only [toSheng, hk, List.getD_eq_getElem?_getD, List.getElem?_map]
    simp only at hg
    rw [hg]
    rfl
  have uniq : ∀ t ∈ ts, ∀ t' ∈ ts, (n1 / 3 = t.atom1 ∧ n2 / 3 = t.atom2 ∧ n3 / 3 = t.atom3 ∧ r3 = i3 t ∧ r2 = i2 t) →
      (n1 / 3 = t'.atom1 ∧ n2 / 3 = t'.atom2 ∧ n3 / 3 = t'.atom3 ∧ r3 = i3 t' ∧ r2 = i2 t') → t.same t' := by
    rintro t ht t' ht' ⟨a1, a2, a3, a4, a5⟩ ⟨b1, b2, b3, b4, b5⟩
    have e2 := h2 t ht
    have e2' := h2 t' ht'
    have e3 := h3 t ht
    have e3' := h3 t' ht'
    rw [← a5] at e2
    rw [← b5] at e2'
    rw [← a4] at e3
    rw [← b4] at e3'
    rw [e2'] at e2
    rw [e3'] at e3
    refine ⟨(hinj _ _ (Option.some.inj e2)).symm, (hinj _ _ (Option.some.inj e3)).symm, Fin.ext (by omega), Fin.ext (by omega), Fin.ext (by omega)⟩
  have hpair : ts.Pairwise fun t t' => ¬ ((n1 / 3 = t.atom1 ∧ n2 / 3 = t.atom2 ∧ n3 / 3 = t.atom3 ∧ r3 = i3 t ∧ r2 = i2 t) ∧
      (n1 / 3 = t'.atom1 ∧ n2 / 3 = t'.atom2 ∧ n3 / 3 = t'.atom3 ∧ r3 = i3 t' ∧ r2 = i2 t')) := by
    refine List.Pairwise.imp_of_mem ?_ hd
    intro t t' ht ht' h hh
    exact h (uniq t ht t' ht' hh.1 hh.2)
  by_cases hex : ∃ t ∈ ts, n1 / 3 = t.atom1 ∧ n2 / 3 = t.atom2 ∧ n3 / 3 = t.atom3 ∧ r3 = i3 t ∧ r2 = i2 t
  · obtain ⟨t, ht, hP⟩ := hex
    rw [list_sum_single (fun t : Triplet A => n1 / 3 = t.atom1 ∧ n2 / 3 = t.atom2 ∧ n3 / 3 = t.atom3 ∧ r3 = i3 t ∧ r2 = i2 t)
      (fun t => t.phi ⟨n1 % 3, Nat.mod_lt _ (by norm_num)⟩ ⟨n2 % 3, Nat.mod_lt _ (by norm_num)⟩ ⟨n3 % 3, Nat.mod_lt _ (by norm_num)⟩ * (bohr ^ 3 / ryd))
      ts hpair t ht hP]
    have hall : ∀ w ∈ ts.flatMap fun t => tripletWrites bohr ryd (A * 3) nr2 t (i2 t) (i3 t) directions,
        w.1 = fc3Address (A * 3) nr2 n1 n2 n3 r3 r2 → w.2 = t.phi ⟨n1 % 3, Nat.mod_lt _ (by norm_num)⟩ ⟨n2 % 3, Nat.mod_lt _ (by norm_num)⟩ ⟨n3 % 3, Nat.mod_lt _ (by norm_num)⟩ * (bohr ^ 3 / ryd) := by
      intro w hw' he
      obtain ⟨t', ht', hP', hv⟩ := hw w hw' he
      rw [hv]
      have : t' = t := by
        by_contra hne
        rcases List.pairwise_iff_getElem.mp hpair with hp
        obtain ⟨i, hi, ei⟩ := List.getElem_of_mem ht
        obtain ⟨j, hj, ej⟩ := List.getElem_of_mem ht'
        rcases lt_trichotomy i j with h | h | h
        · exact hp i j hi hj h (by rw [ei, ej]; exact ⟨hP, hP'⟩)
        · subst h; exact hne (ej.symm.trans ei)
        · exact hp j i hj hi h (by rw [ei, ej]; exact ⟨hP', hP⟩)
      rw [this]
    refine (applyUpdates_val _ _ _).2 _ ?_ hall
    obtain ⟨a1, a2, a3, a4, a5⟩ := hP
    have hmem : (((n1 % 3 : Nat) : Int), ((n2 % 3 : Nat) : Int), ((n3 % 3 : Nat) : Int)) ∈ directions :=
      mem_directions ⟨n1 % 3, Nat.mod_lt _ (by norm_num)⟩ ⟨n2 % 3, Nat.mod_lt _ (by norm_num)⟩ ⟨n3 % 3, Nat.mod_lt _ (by norm_num)⟩
    have hadr : fc3Address (A * 3) nr2 ((t.atom1 : Nat) * 3 + ((n1 % 3 : Nat) : Int)) ((t.atom2 : Nat) * 3 + ((n2 % 3 : Nat) : Int))
        ((t.atom3 : Nat) * 3 + ((n3 % 3 : Nat) : Int)) (i3 t) (i2 t) = fc3Address (A * 3) nr2 n1 n2 n3 r3 r2 := by
      rw [← a1, ← a2, ← a3, ← a4, ← a5]
      congr 1 <;> omega
    have hin : (fc3Address (A * 3) nr2 n1 n2 n3 r3 r2, (toSheng bohr ryd t).fc (9 * ((n1 % 3 : Nat) : Int) + 3 * ((n2 % 3 : Nat) : Int) + ((n3 % 3 : Nat) : Int)).toNat) ∈
        ts.flatMap fun t => tripletWrites bohr ryd (A * 3) nr2 t (i2 t) (i3 t) directions := by
      refine List.mem_flatMap.mpr ⟨t, ht, List.mem_map.mpr ⟨_, hmem, ?_⟩⟩
      simp only
      rw [hadr]
    have := hall _ hin rfl
    simp only at this
    rw [← this]
    exact hin
  · push Not at hex
    rw [list_sum_none (fun t : Triplet A => n1 / 3 = t.atom1 ∧ n2 / 3 = t.atom2 ∧ n3 / 3 = t.atom3 ∧ r3 = i3 t ∧ r2 = i2 t)]
    · refine (applyUpdates_val _ _ _).1 fun w hw' he => ?_
      obtain ⟨t, ht, ⟨a1, a2, a3, a4, a5⟩, -⟩ := hw w hw' he
      exact hex t ht a1 a2 a3 a4 a5
    · rintro t ht ⟨a1, a2, a3, a4, a5⟩
      exact hex t ht a1 a2 a3 a4 a5

/-- `t` holds, for all bands, the squared modulus of the sum over triplets. -/
def IsTripletCoupling {A : Nat} (bohr ryd : ℝ) (ts : List (Triplet A)) (t : Tensor3) (nb1 nb2 nb3 : Nat) (s : ℝ)
    (q2 q3 : Fin 3 → ℝ) (e1 e2 e3 : Nat → Nat → ℂ) : Prop :=
  t.d0 = nb1 ∧ t.d1 = nb2 ∧ t.d2 = nb3 ∧ ∀ b1 < nb1, ∀ b2 < nb2, ∀ b3 < nb3,
    t.val b1 b2 b3 = Complex.normSq (tripletCoupling bohr ryd ts s q2 q3 (fun a => e1 a b1) (fun a => e2 a b2) (fun a => e3 a b3))

/-- **C149** (missing: files with different numbers of second and third cells, see `C149_violated_cells`; files that are cut short,
see `C149_violated_truncated`).  From the file of triplets that are listed once and whose cells coincide or are apart, the couplings
of all bands and wavevectors are the squared moduli of the sum over the triplets of the file. -/
theorem C149_couplings_partial {A : Nat} (hA : (A : Int) * 3 ≤ intMax + 1) (bohr ryd : ℝ) (hb : bohr ≠ 0) (newline : Bool)
    (ts : List (Triplet A)) (hn : 27 * (ts.length : Int) ≤ intMax) (hd : ts.Pairwise fun t t' => ¬ t.same t')
    (h2 : CellsApart bohr (ts.map Triplet.cell2)) (h3 : CellsApart bohr (ts.map Triplet.cell3))
    (hsame : numCells (ts.map Triplet.cell2) = numCells (ts.map Triplet.cell3))
    (batch : List CouplingInput) (hne : batch ≠ []) (q2 : Fin 3 → ℝ) (ev2 : Nat → Nat → ℂ) (nb2 : Nat) :
    ∃ o res, parseSheng A bohr ryd newline (shengFile ts) = .ok o ∧
      getCouplingsSquared (o.cacheD3 q2) batch q2 ev2 nb2 = .ok res ∧
      res.length = batch.length ∧ ∀ (k : Nat) (x : CouplingInput) (t : Tensor3 × Tensor3),
      batch[k]? = some x → res[k]? = some t →
      IsTripletCoupling bohr ryd ts t.1 x.nb1 nb2 x.nb3Plus 1 q2 (fun i => x.q1 i + q2 i) x.ev1 ev2 x.ev3Plus ∧
      IsTripletCoupling bohr ryd ts t.2 x.nb1 nb2 x.nb3Mins (-1) q2 (fun i => x.q1 i - q2 i) x.ev1
        (fun a b => (starRingEnd ℂ) (ev2 a b)) x.ev3Mins := by
  classical
  have hread (l : List FcToken) : readTriplets newline bohr ryd ts.length ⟨ts.zipIdx.flatMap fun p => p.1.lines (p.2 + 1), l⟩ =
      .ok (ts.map (toSheng bohr ryd)) := by
    have := readTriplets_val newline bohr ryd [] ts 0 l
    rw [List.append_nil] at this
    exact this
  have hparse := parse_header bohr ryd newline ts hn ts.length rfl _ hread
  set c2 := distinctCells ((ts.map Triplet.cell2).map fun c i => c i / bohr) with hc2
  set c3 := distinctCells ((ts.map Triplet.cell3).map fun c i => c i / bohr) with hc3
  have hl2 : c2.length = numCells (ts.map Triplet.cell2) := numCells_div bohr hb _
  have hl3 : c3.length = c2.length := by rw [hl2, hsame]; exact numCells_div bohr hb _
  have mem2 (p : Fin 3 → ℝ) : p ∈ c2 ↔ ∃ t ∈ ts, p = (toSheng bohr ryd t).pos2 := by
    rw [hc2, mem_distinctCells, List.map_map, List.mem_map]
    constructor
    · rintro ⟨t, ht, rfl⟩; exact ⟨t, ht, rfl⟩
    · rintro ⟨t, ht, rfl⟩; exact ⟨t, ht, rfl⟩
  have mem3 (p : Fin 3 → ℝ) : p ∈ c3 ↔ ∃ t ∈ ts, p = (toSheng bohr ryd t).pos3 := by
    rw [hc3, mem_distinctCells, List.map_map, List.mem_map]
    constructor
    · rintro ⟨t, ht, rfl⟩; exact ⟨t, ht, rfl⟩
    · rintro ⟨t, ht, rfl⟩; exact ⟨t, ht, rfl⟩
  have ex2 (t : Triplet A) : ∃ i, t ∈ ts → findIndexRow c2 (toSheng bohr ryd t).pos2 = .ok i ∧ c2[i]? = some (toSheng bohr ryd t).pos2 := by
    by_cases ht : t ∈ ts
    · obtain ⟨i, h⟩ := findIndexRow_val c2 (toSheng bohr ryd t).pos2 ((mem2 _).mpr ⟨t, ht, rfl⟩) (by
        intro c hc
        obtain ⟨t', ht', rfl⟩ := (mem2 _).mp hc
        rcases h2 _ (List.mem_map.mpr ⟨t, ht, rfl⟩) _ (List.mem_map.mpr ⟨t', ht', rfl⟩) with h | h
        · left; simp only [toSheng, h]
        · right; exact h)
      exact ⟨i, fun _ => h⟩
    · exact ⟨0, fun h => absurd h ht⟩
  have ex3 (t : Triplet A) : ∃ i, t ∈ ts → findIndexRow c3 (toSheng bohr ryd t).pos3 = .ok i ∧ c3[i]? = some (toSheng bohr ryd t).pos3 := by
    by_cases ht : t ∈ ts
    · obtain ⟨i, h⟩ := findIndexRow_val c3 (toSheng bohr ryd t).pos3 ((mem3 _).mpr ⟨t, ht, rfl⟩) (by
        intro c hc
        obtain ⟨t', ht', rfl⟩ := (mem3 _).mp hc
        rcases h3 _ (List.mem_map.mpr ⟨t, ht, rfl⟩) _ (List.mem_map.mpr ⟨t', ht', rfl⟩) with h | h
        · left; simp only [toSheng, h]
        · right; exact h)
      exact ⟨i, fun _ => h⟩
    · exact ⟨0, fun h => absurd h ht⟩
  choose i2 hi2 using ex2
  choose i3 hi3 using ex3
  have lt2 (t : Triplet A) (ht : t ∈ ts) : i2 t < c2.length := (List.getElem?_eq_some_iff.mp (hi2 t ht).2).1
  have lt3 (t : Triplet A) (ht : t ∈ ts) : i3 t < c3.length := (List.getElem?_eq_some_iff.mp (hi3 t ht).2).1
  have hfill := fillFc3_val bohr ryd c2.length c3.length hA c2 c3 i2 i3 ts
    (fun t ht => ⟨(hi2 t ht).1, by have := lt2 t ht; omega⟩) (fun t ht => ⟨(hi3 t ht).1, by have := lt3 t ht; omega⟩) (fun _ => 0)
  simp only at hparse
  rw [hfill, Outcome.bind_ok, if_pos (by
    intro i1 j2 j3 i5 i4 g1 g2 g3 g4 g5
    exact (fc3Address_bound (A * 3) c2.length c3.length i1 j2 j3 i5 i4 g1 g2 g3 (by omega) (by omega)).2)] at hparse
  obtain ⟨o, res, ho, hres, hlen, hval⟩ := C62_lattice_sum_partial A c2.length c3.length _ (fun i r => c2.getD r (fun _ => 0) i)
    (fun i r => c3.getD r (fun _ => 0) i) (fun _ _ _ => 1) (fun _ _ _ => 1) (fun _ _ _ => Or.inr rfl) hl3.le batch hne q2 ev2 nb2
  refine ⟨o, res, hparse.trans ho, hres, hlen, fun k x t hx ht => ?_⟩
  have key (s : ℝ) (q2 q3 : Fin 3 → ℝ) (e1 e2 e3 : Nat → ℂ) :
      Spec.coupling (A * 3) c2.length c3.length (fun r i => c2.getD r (fun _ => 0) i) (fun r i => c3.getD r (fun _ => 0) i)
        (fun _ _ _ => 1) (fun _ _ _ => 1) (fun a b c d e => applyUpdates (ts.flatMap fun t => tripletWrites bohr ryd (A * 3) c2.length t (i2 t) (i3 t) directions)
          (fun _ => 0) (fc3Address (A * 3) c2.length a b c d e)) s q2 q3 e1 e2 e3 = tripletCoupling bohr ryd ts s q2 q3 e1 e2 e3 := by
    rw [coupling_congr _ _ _ _ _ _ _ _ _ (fun a1 g1 a2 g2 a3 g3 r3 g4 r2 g5 =>
      fill_tensor bohr ryd hb ts i2 i3 c2.length c2 c3 hl3 (fun t ht => (hi2 t ht).2) (fun t ht => (hi3 t ht).2) hd
        a1 a2 a3 r3 r2 g1 g2 g3 (by omega))]
    rw [coupling_list (A * 3) c2.length c3.length (fun r i => c2.getD r (fun _ => 0) i) (fun r i => c3.getD r (fun _ => 0) i)
        (fun _ _ _ => 1) (fun _ _ _ => 1) (fun (t : Triplet A) n1 n2 n3 r3 r2 =>
        if n1 / 3 = t.atom1 ∧ n2 / 3 = t.atom2 ∧ n3 / 3 = t.atom3 ∧ r3 = i3 t ∧ r2 = i2 t then
        t.phi ⟨n1 % 3, Nat.mod_lt _ (by norm_num)⟩ ⟨n2 % 3, Nat.mod_lt _ (by norm_num)⟩ ⟨n3 % 3, Nat.mod_lt _ (by norm_num)⟩ * (bohr ^ 3 / ryd)
        else 0)]
    unfold tripletCoupling
    congr 1
    refine List.map_congr_left fun t ht => ?_
    rw [coupling_single A c2.length c3.length _ _ t.atom1 t.atom2 t.atom3 (i2 t) (i3 t) t.atom1.isLt t.atom2.isLt t.atom3.isLt
      (lt2 t ht) (lt3 t ht)
      (fun n1 n2 n3 => t.phi ⟨n1 % 3, Nat.mod_lt _ (by norm_num)⟩ ⟨n2 % 3, Nat.mod_lt _ (by norm_num)⟩ ⟨n3 % 3, Nat.mod_lt _ (by norm_num)⟩ * (bohr ^ 3 / ryd))]
    refine Finset.sum_congr rfl fun i _ => Finset.sum_congr rfl fun j _ => Finset.sum_congr rfl fun k _ => ?_
    have hm (a : Fin A) (c : Fin 3) : (⟨(3 * (a : Nat) + c) % 3, Nat.mod_lt _ (by norm_num)⟩ : Fin 3) = c := by
      apply Fin.ext
      simp only
      omega
    simp only [hm]
    have g2 : c2.getD (i2 t) (fun _ => 0) = fun i => t.cell2 i / bohr := by
      rw [List.getD_eq_getElem?_getD, (hi2 t ht).2]; rfl
    have g3 : c3.getD (i3 t) (fun _ => 0) = fun i => t.cell3 i / bohr := by
      rw [List.getD_eq_getElem?_getD, (hi3 t ht).2]; rfl
    rw [g2, g3]
  obtain ⟨⟨d1, d2, d3, hv⟩, ⟨d1', d2', d3', hv'⟩⟩ := hval k x t hx ht
  refine ⟨⟨d1, d2, d3, fun b1 g1 b2 g2 b3 g3 => ?_⟩, ⟨d1', d2', d3', fun b1 g1 b2 g2 b3 g3 => ?_⟩⟩
  · rw [hv b1 g1 b2 g2 b3 g3, key]
  · rw [hv' b1 g1 b2 g2 b3 g3, key]

/-- A case of the hypotheses: one atom, two triplets, one of them in the home cell. -/
example : ∃ ts : List (Triplet 1), ts.length = 2 ∧ ts.Pairwise (fun t t' => ¬ t.same t') ∧ CellsApart 1 (ts.map Triplet.cell2) ∧
    CellsApart 1 (ts.map Triplet.cell3) ∧ numCells (ts.map Triplet.cell2) = numCells (ts.map Triplet.cell3) ∧
    tripletCoupling 1 1 ts 1 (fun _ => 0) (fun _ => 0) (fun a => if a = 0 then 1 else 0) (fun a => if a = 0 then 1 else 0)
      (fun a => if a = 0 then 1 else 0) = 2 := by
  have hap : CellsApart 1 [(fun _ => 0 : Fin 3 → ℝ), fun _ => 1] := by
    have h1 : (1 : ℝ) ≤ Real.sqrt 3 := Real.one_le_sqrt.mpr (by norm_num)
    intro c hc c' hc'
    simp only [List.mem_cons, List.not_mem_nil, or_false] at hc hc'
    rcases hc with rfl | rfl <;> rcases hc' with rfl | rfl
    · exact Or.inl rfl
    · right; norm_num [norm3]; linarith
    · right; norm_num [norm3]; linarith
    · exact Or.inl rfl
  refine ⟨[⟨fun _ => 0, fun _ => 0, 0, 0, 0, fun _ _ _ => 1⟩, ⟨fun _ => 1, fun _ => 1, 0, 0, 0, fun _ _ _ => 1⟩], rfl, ?_, hap, hap, rfl, ?_⟩
  · simp only [List.pairwise_cons, List.mem_singleton, forall_eq, List.not_mem_nil, false_implies, implies_true, List.Pairwise.nil, and_true]
    intro h
    have := congrFun h.1 0
    norm_num at this
  · simp [tripletCoupling, Fin.sum_univ_three, scal]
    norm_num

/-- **C149 is violated** by every file in which the triplets have different numbers of second and third cells: the tensor is
allocated with the two extents exchanged, and it is accessed outside of its memory. -/
theorem C149_violated_cells {A : Nat} (hA : 0 < A) (bohr ryd : ℝ) (hb : bohr ≠ 0) (newline : Bool)
    (ts : List (Triplet A)) (hn : 27 * (ts.length : Int) ≤ intMax)
    (hdiff : numCells (ts.map Triplet.cell2) ≠ numCells (ts.map Triplet.cell3)) :
    parseSheng A bohr ryd newline (shengFile ts) = .ub := by
  classical
  have hread (l : List FcToken) : readTriplets newline bohr ryd ts.length ⟨ts.zipIdx.flatMap fun p => p.1.lines (p.2 + 1), l⟩ =
      .ok (ts.map (toSheng bohr ryd)) := by
    have := readTriplets_val newline bohr ryd [] ts 0 l
    rw [List.append_nil] at this
    exact this
  have hparse := parse_header bohr ryd newline ts hn ts.length rfl _ hread
  set c2 := distinctCells ((ts.map Triplet.cell2).map fun c i => c i / bohr) with hc2
  set c3 := distinctCells ((ts.map Triplet.cell3).map fun c i => c i / bohr) with hc3
  have hl2 : c2.length = numCells (ts.map Triplet.cell2) := numCells_div bohr hb _
  have hl3 : c3.length = numCells (ts.map Triplet.cell3) := numCells_div bohr hb _
  rw [← hl2, ← hl3] at hdiff
  refine hparse.trans ?_
  simp only
  rcases fillFc3_total (A * 3) c2.length (A * 3 * (A * 3) * (A * 3) * c2.length * c3.length) A c2 c3 (ts.map (toSheng bohr ryd)) (by
    intro x hx
    obtain ⟨t, ht, rfl⟩ := List.mem_map.mp hx
    constructor
    · rw [hc2, mem_distinctCells, List.map_map]; exact List.mem_map.mpr ⟨t, ht, rfl⟩
    · rw [hc3, mem_distinctCells, List.map_map]; exact List.mem_map.mpr ⟨t, ht, rfl⟩) (fun _ => 0) with h | ⟨m, h⟩
  · rw [h]; rfl
  · rw [h, Outcome.bind_ok]
    split_ifs with hin
    · unfold Coupling3Ph.make
      rw [if_pos]
      refine ⟨hA, ?_⟩
      by_contra hge
      have hpos3 : 0 < c3.length := by
        rcases Nat.eq_zero_or_pos c3.length with h0 | h0
        · -- no third cell, no triplet, no second cell
          have : ts = [] := by
            by_contra hne
            obtain ⟨t, ht⟩ := List.exists_mem_of_ne_nil _ hne
            have : (toSheng bohr ryd t).pos3 ∈ c3 := by rw [hc3, mem_distinctCells, List.map_map]; exact List.mem_map.mpr ⟨t, ht, rfl⟩
            rw [List.length_eq_zero_iff.mp h0] at this
            simp at this
          exact absurd (by rw [hc2, hc3, this]; rfl) hdiff
        · exact h0
      have := hin 0 0 0 0 (c2.length - 1) (by omega) (by omega) (by omega) hpos3 (by omega)
      unfold fc3Address at this
      have e : ((A * 3 * (A * 3) * (A * 3) * c2.length * c3.length : Nat) : Int) = ((A * 3 : Nat) : Int) * ((A * 3 : Nat) * ((A * 3 : Nat) * (c2.length * c3.length))) := by
        push_cast; ring
      rw [e] at this
      have hx : (c2.length : Int) * c3.length ≤ c2.length * ((c2.length - 1 : Nat) : Int) :=
        mul_le_mul_of_nonneg_left (by omega) (by omega)
      have hnb : (0 : Int) ≤ ((A * 3 : Nat) : Int) := by omega
      have h1 := mul_le_mul_of_nonneg_left (mul_le_mul_of_nonneg_left (mul_le_mul_of_nonneg_left hx hnb) hnb) hnb
      simp only [Nat.cast_zero, zero_add] at this
      exact absurd this (not_lt.mpr h1)
    · rfl

/-- The cells of a triplet in the home cell and of one in another second cell: one third cell, two second cells. -/
example : ∃ ts : List (Triplet 1), numCells (ts.map Triplet.cell2) ≠ numCells (ts.map Triplet.cell3) := by
  refine ⟨[⟨fun _ => 0, fun _ => 0, 0, 0, 0, fun _ _ _ => 1⟩, ⟨fun _ => 1, fun _ => 0, 0, 0, 0, fun _ _ _ => 1⟩], ?_⟩
  have h : (fun _ => 0 : Fin 3 → ℝ) ≠ fun _ => 1 := by
    intro h
    have := congrFun h 0
    norm_num at this
  have e2 : {c | c ∈ [(fun _ => 0 : Fin 3 → ℝ), fun _ => 1]} = {fun _ => 0, fun _ => 1} := by ext c; simp
  have e3 : {c | c ∈ [(fun _ => 0 : Fin 3 → ℝ), fun _ => 0]} = {fun _ => 0} := by ext c; simp
  simp only [numCells, List.map_cons, List.map_nil]
  rw [e2, e3, Set.ncard_pair h, Set.ncard_singleton]
  norm_num

/-- The triplet that is made of a block that is missing. -/
def zeroTriplet (A : Nat) (hA : 0 < A) : Triplet A := ⟨fun _ => 0, fun _ => 0, ⟨0, hA⟩, ⟨0, hA⟩, ⟨0, hA⟩, fun _ _ _ => 0⟩

theorem shengEntries_empty (conv : ℝ) : ∀ n, shengEntries true conv n ⟨[], []⟩ = (List.replicate n 0, ⟨[], []⟩) := by
  intro n
  induction n with
  | zero => rfl
  | succ n ih =>
    simp only [shengEntries, FcStream.next, if_true, shengEntry]
    rw [ih]
    rfl

theorem readTriplet_empty (A : Nat) (hA : 0 < A) (bohr ryd : ℝ) (l : List FcToken) :
    readTriplet true bohr ryd ⟨[], l⟩ = .ok (toSheng bohr ryd (zeroTriplet A hA), ⟨[], []⟩) := by
  have hp : shengPosition bohr [] = .ok fun _ => 0 := by
    unfold shengPosition
    rw [if_neg (by simp)]
    congr 1
  have ha : shengAtoms [] = .ok fun _ => 0 := by
    unfold shengAtoms
    exact if_neg (by simp [leadingInts])
  unfold readTriplet
  simp only [FcStream.next, if_true]
  rw [hp, ha]
  simp only [Outcome.bind_eq, Outcome.bind_ok]
  rw [shengEntries_empty]
  have e : toSheng bohr ryd (zeroTriplet A hA) = ⟨fun _ => 0, fun _ => 0, fun _ => 0, fun k => (List.replicate 27 (0 : ℝ)).getD k 0⟩ := by
    unfold toSheng zeroTriplet
    simp only [zero_div, ShengTriplet.mk.injEq, true_and]
    constructor
    · funext j
      match j with
      | 0 => rfl
      | 1 => rfl
      | 2 => rfl
      | j + 3 => rfl
    · funext k
      simp only [zero_mul, List.map_const', shengTriples_length]
  rw [e]

/-- **C149 is violated** by a file that is cut short: it is accepted, and the missing triplet replaces the force constants of the
first atom with itself in the home cell by zero, whatever they are. -/
theorem C149_violated_truncated (A : Nat) (hA : 0 < A) (hA' : (A : Int) * 3 ≤ intMax + 1) (bohr ryd : ℝ)
    (phi : Fin 3 → Fin 3 → Fin 3 → ℝ) (t' : Triplet A) :
    ∃ o, parseSheng A bohr ryd true ((shengFile [⟨fun _ => 0, fun _ => 0, ⟨0, hA⟩, ⟨0, hA⟩, ⟨0, hA⟩, phi⟩, t']).take 33) = .ok o ∧
      ∀ i j k : Fin 3, o.D3 i j k 0 0 = 0 := by
  classical
  set t : Triplet A := ⟨fun _ => 0, fun _ => 0, ⟨0, hA⟩, ⟨0, hA⟩, ⟨0, hA⟩, phi⟩ with ht
  have hfile : (shengFile [t, t']).take 33 = [.int (2 : Nat)] :: (t.lines 1 ++ []) := by
    have hl : (t.lines 1).length = 32 := by
      rw [lines_eq]
      simp [shengTriples_length]
    unfold shengFile
    simp only [List.zipIdx_cons, List.zipIdx_nil, List.flatMap_cons, List.flatMap_nil, List.append_nil, List.take_succ_cons,
      List.length_cons, List.length_nil]
    have e := List.take_left' (l₁ := t.lines 1) (l₂ := t'.lines 2) hl
    exact congrArg _ e
  have hread (l : List FcToken) : readTriplets true bohr ryd 2 ⟨t.lines 1 ++ [], l⟩ =
      .ok ([t, zeroTriplet A hA].map (toSheng bohr ryd)) := by
    obtain ⟨l', h⟩ := readTriplet_val true bohr ryd t 1 [] l
    simp only [readTriplets]
    rw [h]
    simp only [Outcome.bind_eq, Outcome.bind_ok]
    rw [readTriplet_empty A hA]
    rfl
  have hparse := parse_header bohr ryd true [t, zeroTriplet A hA] (by norm_num; decide) 2 rfl _ hread
  rw [hfile]
  have hz : (fun _ => 0 : Fin 3 → ℝ) = fun i : Fin 3 => (0 : ℝ) / bohr := by funext i; simp
  have hcells : distinctCells [(fun _ => 0 : Fin 3 → ℝ), fun _ => 0] = [fun _ => 0] := by simp [distinctCells]
  have hc2 : distinctCells (([t, zeroTriplet A hA].map Triplet.cell2).map fun c i => c i / bohr) = [fun _ => 0] := by
    simp only [List.map_cons, List.map_nil, ht, zeroTriplet, zero_div]
    exact hcells
  have hc3 : distinctCells (([t, zeroTriplet A hA].map Triplet.cell3).map fun c i => c i / bohr) = [fun _ => 0] := by
    simp only [List.map_cons, List.map_nil, ht, zeroTriplet, zero_div]
    exact hcells
  simp only at hparse
  rw [hc2, hc3] at hparse
  have hrow : findIndexRow [fun _ => 0] (fun _ => 0) = .ok 0 := by
    unfold findIndexRow
    have : norm3 (fun _ => (0 : ℝ) - 0) < 1.0e-12 := by rw [sub_self, norm3_zero]; norm_num
    simp only [List.findIdx?_cons, decide_eq_true this, if_true]
  have hpos : ∀ x ∈ [t, zeroTriplet A hA], (toSheng bohr ryd x).pos2 = (fun _ => 0) ∧ (toSheng bohr ryd x).pos3 = fun _ => 0 := by
    intro x hx
    simp only [List.mem_cons, List.not_mem_nil, or_false] at hx
    rcases hx with rfl | rfl <;> simp [toSheng, zeroTriplet, ht]
  have hfill := fillFc3_val bohr ryd 1 1 hA' [fun _ => 0] [fun _ => 0] (fun _ => 0) (fun _ => 0) [t, zeroTriplet A hA]
    (fun x hx => ⟨by rw [(hpos x hx).1]; exact hrow, by norm_num⟩) (fun x hx => ⟨by rw [(hpos x hx).2]; exact hrow, by norm_num⟩) (fun _ => 0)
  simp only [List.length_cons, List.length_nil, zero_add] at hparse
  rw [hfill, Outcome.bind_ok, if_pos (by
    intro i1 j2 j3 i5 i4 g1 g2 g3 g4 g5
    exact (fc3Address_bound (A * 3) 1 1 i1 j2 j3 i5 i4 g1 g2 g3 (by omega) (by omega)).2)] at hparse
  unfold Coupling3Ph.make at hparse
  rw [if_neg (by omega)] at hparse
  refine ⟨_, hparse, fun i j k => ?_⟩
  simp only [List.flatMap_cons, List.flatMap_nil, List.append_nil]
  rw [applyUpdates_append]
  refine (applyUpdates_val _ _ _).2 0 ?_ ?_
  · refine List.mem_map.mpr ⟨_, mem_directions i j k, ?_⟩
    simp only [zeroTriplet, Nat.cast_zero, zero_mul, zero_add, Prod.mk.injEq, toSheng, List.getD_eq_getElem?_getD, List.getElem?_map]
    refine ⟨trivial, ?_⟩
    cases shengTriples[(9 * ((i : Nat) : Int) + 3 * ((j : Nat) : Int) + ((k : Nat) : Int)).toNat]? <;> rfl
  · intro w hw _
    obtain ⟨c, -, rfl⟩ := List.mem_map.mp hw
    simp only [zeroTriplet, zero_mul, toSheng, List.getD_eq_getElem?_getD, List.getElem?_map]
    cases shengTriples[(9 * c.1 + 3 * c.2.1 + c.2.2).toNat]? <;> rfl

/-- **C149, numbers without a decimal point.** A file in which some positions and force constants that are integers are written without a decimal point is read as the file
with decimal points everywhere. -/
theorem C149_integers {A : Nat} (numAtoms : Nat) (bohr ryd : ℝ) (newline : Bool) (ts : List (Triplet A)) (wr : ℝ → FcToken) (hwr : ∀ x, SpellsNumber (wr x) x) :
    parseSheng numAtoms bohr ryd newline (shengFileBy wr ts) = parseSheng numAtoms bohr ryd newline (shengFile ts) := by
  have hv : ∀ x, (wr x).value = x := by
    intro x
    rcases hwr x with h | ⟨n, h, hn⟩
    · rw [h]; rfl
    · rw [h]; exact hn
  have h1 := fun l => readTripletsBy_val wr hv newline bohr ryd [] ts 0 l
  have h2 := fun l => readTriplets_val newline bohr ryd [] ts 0 l
  simp only [List.append_nil] at h1 h2
  unfold parseSheng shengFileBy shengFile
  simp only [FcStream.next, Int.toNat_natCast, h1, h2]

open Classical in
/-- A program that writes all the integers without a decimal point. -/
example : ∃ wr : ℝ → FcToken, (∀ x, SpellsNumber (wr x) x) ∧ wr 2 = .int 2 ∧ wr 2 ≠ .num 2 := by
  refine ⟨fun x => if (⌊x⌋ : ℝ) = x then .int ⌊x⌋ else .num x, fun x => ?_, ?_, ?_⟩
  · by_cases h : (⌊x⌋ : ℝ) = x
    · exact Or.inr ⟨⌊x⌋, by simp only [h, if_true], h⟩
    · exact Or.inl (by simp only [h, if_false])
  · simp
  · simp

end Verif.Props
