import Verif.Spec.FullStore
import Verif.Props.Bands
import Verif.Props.Matrix
import Verif.Proofs.ActiveStore
import Verif.Proofs.Input

namespace Verif.Props
open Verif.Model Verif.Spec

/-! ### Matrices of a band structure -/

/-- A matrix with `rows` rows and `cols` columns of which the process holds the columns with `loc`. -/
def BandGood {α : Type} (rank rows cols : Nat) (loc : Nat → Prop) : BandMat α → Prop
  | .serial m => m.WF ∧ m.numRows = rows ∧ m.numCols = cols ∧ ∀ c < cols, loc c
  | .parallel L _ => L.Good ∧ L.numRows = rows ∧ L.numCols = cols ∧ L.numBlasRows = 1 ∧ L.blockSizeRows = rows ∧
      rank < L.numBlasCols ∧ ∀ c < cols, (loc c ↔ rank = own L.blockSizeCols L.numBlasCols c)

theorem own_one (b x : Nat) : own b 1 x = 0 := by unfold own; exact Nat.mod_one _

theorem band_holds {α : Type} {rank rows cols : Nat} {loc : Nat → Prop} {m : BandMat α}
    (h : BandGood rank rows cols loc m) (row col : Nat) (hc : col < cols) : m.holds rank row col = true ↔ loc col := by
  cases m with
  | serial m => exact ⟨fun _ => h.2.2.2 col hc, fun _ => rfl⟩
  | parallel L m =>
    obtain ⟨_, _, _, h3, _, _, h6⟩ := h
    unfold BandMat.holds
    rw [decide_eq_true_iff, global2Local_ne, h3, own_one, h6 col hc]
    simp

theorem band_localRows {α : Type} {rank rows cols : Nat} {loc : Nat → Prop} {m : BandMat α}
    (h : BandGood rank rows cols loc m) (hr : 0 < rows) : m.localRows rank = rows := by
  cases m with
  | serial m => exact h.2.1
  | parallel L m =>
    obtain ⟨_, h1, _, h3, h4, _, _⟩ := h
    show L.localRows 0 = rows
    unfold Layout.localRows numroc
    rw [h1, h3, h4]
    simp [Nat.div_self hr, Nat.mod_one]

theorem band_set {α : Type} [Zero α] {rank rows cols : Nat} {loc : Nat → Prop} {m : BandMat α}
    (h : BandGood rank rows cols loc m) {row col : Nat} (hr : row < rows) (hc : col < cols) (hl : loc col) (v : α) :
    ∃ m', m.set rank row col v = .ok m' ∧ BandGood rank rows cols loc m' ∧
      ∀ r c, r < rows → c < cols → m'.get rank r c = if r = row ∧ c = col then .ok v else m.get rank r c := by
  cases m with
  | serial m =>
    obtain ⟨hw, rfl, rfl, hloc⟩ := h
    obtain ⟨m', h1, h2, h3, h4, h5⟩ := sset_spec m hw hr hc v
    refine ⟨.serial m', ?_, ⟨h4, h2, h3, hloc⟩, fun r c g1 g2 => h5 r c g1 g2⟩
    show (m.set row col v >>= fun m' => Outcome.ok (BandMat.serial m')) = _
    rw [h1]; rfl
  | parallel L m =>
    obtain ⟨hG, h1, h2, h3, h4, h5, h6⟩ := h
    refine ⟨_, rfl, ⟨hG, h1, h2, h3, h4, h5, h6⟩, ?_⟩
    intro r c g1 g2
    show Outcome.ok _ = if _ then _ else Outcome.ok _
    rw [get_set L hG m (by omega) (by omega) (by omega) (by omega)]
    rw [h3, own_one]
    by_cases e : r = row ∧ c = col
    · rw [if_pos e, if_pos ⟨⟨rfl, rfl, e.1, e.2⟩, rfl, (h6 col hc).mp hl⟩]
    · rw [if_neg e, if_neg]
      rintro ⟨⟨_, _, e1, e2⟩, _⟩
      exact e ⟨e1, e2⟩

theorem band_setColumn {α : Type} [Zero α] {rank rows cols : Nat} {loc : Nat → Prop} {m : BandMat α}
    (h : BandGood rank rows cols loc m) (hrows : 0 < rows) {ik : Nat} (hc : ik < cols) (hl : loc ik) (xs : List α)
    (hx : xs.length = rows) :
    ∃ m', m.setColumn rank ik xs = .ok m' ∧ BandGood rank rows cols loc m' ∧
      ∀ r c, r < rows → c < cols → m'.get rank r c = if c = ik then readAt xs r else m.get rank r c := by
  have key : ∀ (l : List Nat) (m : BandMat α), BandGood rank rows cols loc m → (∀ r ∈ l, r < rows) →
      ∃ m', foldOutcome (fun (ib : Nat) (a : BandMat α) => do
        let x ← readAt xs ib
        a.set rank ib ik x) l m = .ok m' ∧ BandGood rank rows cols loc m' ∧
        ∀ r c, r < rows → c < cols → m'.get rank r c = if c = ik ∧ r ∈ l then readAt xs r else m.get rank r c := by
    intro l
    induction l with
    | nil => intro m h _; exact ⟨m, rfl, h, fun r c _ _ => by simp⟩
    | cons a t ih =>
      intro m h hin
      have ha := hin a (by simp)
      have hra : readAt xs a = .ok (xs[a]'(by omega)) := by
        unfold readAt; rw [List.getElem?_eq_getElem (by omega)]
      obtain ⟨m1, e1, g1, v1⟩ := band_set h ha hc hl (xs[a]'(by omega))
      obtain ⟨m2, e2, g2, v2⟩ := ih m1 g1 (fun r hr => hin r (by simp [hr]))
      refine ⟨m2, ?_, g2, ?_⟩
      · unfold foldOutcome
        rw [hra]
        show (m.set rank a ik _).bind _ = _
        rw [e1]
        exact e2
      · intro r c hr hc'
        rw [v2 r c hr hc', v1 r c hr hc']
        by_cases hck : c = ik
        · subst hck
          by_cases hrt : r ∈ t
          · simp [hrt]
          · by_cases hra' : r = a
            · subst hra'; simp [hrt, hra]
            · simp [hrt, hra']
        · simp [hck]
  obtain ⟨m', e, g, v⟩ := key (List.range (m.localRows rank)) m h (by
    intro r hr; rw [band_localRows h hrows] at hr; simpa using hr)
  refine ⟨m', ?_, g, ?_⟩
  · unfold BandMat.setColumn
    rw [if_pos ((band_holds h 0 ik hc).mpr hl)]
    exact e
  · intro r c hr hc'
    rw [v r c hr hc', band_localRows h hrows]
    simp [hr]

theorem band_setColumn_refused {α : Type} {rank rows cols : Nat} {loc : Nat → Prop} {m : BandMat α}
    (h : BandGood rank rows cols loc m) {ik : Nat} (hc : ik < cols) (hl : ¬ loc ik) (xs : List α) :
    m.setColumn rank ik xs = .error := by
  unfold BandMat.setColumn
  rw [if_neg]
  intro hh
  exact hl ((band_holds h 0 ik hc).mp hh)

/-! ### Combined indices -/

theorem three_lt {a b c d1 d2 d3 : Nat} (h1 : a < d1) (h2 : b < d2) (h3 : c < d3) :
    a * d2 * d3 + b * d3 + c < d1 * d2 * d3 := by
  have e1 : a * d2 + b < d1 * d2 := by
    calc a * d2 + b < a * d2 + d2 := by omega
      _ = (a + 1) * d2 := by ring
      _ ≤ d1 * d2 := Nat.mul_le_mul_right _ h1
  calc a * d2 * d3 + b * d3 + c < a * d2 * d3 + b * d3 + d3 := by omega
    _ = (a * d2 + b + 1) * d3 := by ring
    _ ≤ d1 * d2 * d3 := Nat.mul_le_mul_right _ e1

theorem two_lt {a b d1 d2 : Nat} (h1 : a < d1) (h2 : b < d2) : a * d2 + b < d1 * d2 := by
  calc a * d2 + b < a * d2 + d2 := by omega
    _ = (a + 1) * d2 := by ring
    _ ≤ d1 * d2 := Nat.mul_le_mul_right _ h1

theorem two_inj {a b a' b' d : Nat} (h : b < d) (h' : b' < d) (e : a * d + b = a' * d + b') : a = a' ∧ b = b' := by
  have hd : 0 < d := by omega
  have e1 : (a * d + b) / d = a := by
    rw [Nat.add_comm, Nat.add_mul_div_right _ _ hd, Nat.div_eq_of_lt h, Nat.zero_add]
  have e2 : (a' * d + b') / d = a' := by
    rw [Nat.add_comm, Nat.add_mul_div_right _ _ hd, Nat.div_eq_of_lt h', Nat.zero_add]
  have : a = a' := by rw [← e1, e, e2]
  subst this
  exact ⟨rfl, by omega⟩

theorem compress3_nat {i1 i2 i3 s1 s2 s3 : Nat} (h1 : i1 < s1) (h2 : i2 < s2) (h3 : i3 < s3)
    (hfit : ((s1 * s2 * s3 : Nat) : Int) ≤ intMax) :
    compress3Indices i1 i2 i3 s1 s2 s3 = .ok ((i1 * s2 * s3 + i2 * s3 + i3 : Nat) : Int) := by
  rw [compress3_val (by omega) (by omega) (by omega) (by omega) (by omega) (by omega) (by push_cast at hfit; exact hfit)]
  push_cast; rfl

theorem compress2_nat {i1 i2 s1 s2 : Nat} (h1 : i1 < s1) (h2 : i2 < s2)
    (hfit : ((s1 * s2 : Nat) : Int) ≤ intMax) :
    compress2Indices i1 i2 s1 s2 = .ok ((i1 * s2 + i2 : Nat) : Int) := by
  rw [compress2_val (by omega) (by omega) (by omega) (by omega) (by push_cast at hfit; omega)]
  push_cast; rfl

theorem decompress2_nat {ik ib np nb : Nat} (hb : ib < nb) (hk : ik < np) (hfit : ((np * nb : Nat) : Int) ≤ intMax) :
    decompress2Indices ((ik * nb + ib : Nat) : Int) np nb = .ok ((ik : Int), (ib : Int)) := by
  have hlt := two_lt hk hb
  rw [decompress2_val (by omega) (by omega) (by omega)]
  have e1 : (ik * nb + ib) / nb = ik := by
    rw [Nat.add_comm, Nat.add_mul_div_right _ _ (by omega), Nat.div_eq_of_lt hb, Nat.zero_add]
  have e2 : (ik * nb + ib) % nb = ib := by
    rw [Nat.add_comm, Nat.add_mul_mod_self_right, Nat.mod_eq_of_lt hb]
  rw [← Int.natCast_ediv, ← Int.natCast_emod, e1, e2]

/-! ### Columns -/

theorem column_written {γ τ : Type} [Zero γ] (n : Nat) (ts : List τ) (idx : τ → Nat) (val : τ → γ)
    (hnd : (ts.map idx).Nodup) (hlt : ∀ t ∈ ts, idx t < n) :
    ∃ xs, writeAll (ts.map fun t => (idx t, val t)) (List.replicate n 0) = .ok xs ∧ xs.length = n ∧
      ∀ t ∈ ts, readAt xs (idx t) = .ok (val t) := by
  obtain ⟨xs, h1, h2, h3, _⟩ := writeAll_spec (ts.map fun t => (idx t, val t)) (List.replicate n (0 : γ)) (by
    intro w hw
    obtain ⟨t, ht, rfl⟩ := List.mem_map.mp hw
    simpa using hlt t ht) (by
    rw [List.map_map]; exact hnd)
  refine ⟨xs, h1, by simpa using h2, ?_⟩
  intro t ht
  have := h3 _ (List.mem_map.mpr ⟨t, ht, rfl⟩)
  unfold readAt
  simp only at this
  rw [this]

theorem velocityColumn_spec {γ : Type} [Zero γ] (nb : Nat) (v : Nat → Nat → Nat → γ)
    (hfit : ((nb * nb * 3 : Nat) : Int) ≤ intMax) :
    ∃ xs, velocityColumn nb v = .ok xs ∧ xs.length = nb * nb * 3 ∧
      ∀ i j k, i < nb → j < nb → k < 3 → readAt xs (i * nb * 3 + j * 3 + k) = .ok (v i j k) := by
  let ts : List (Nat × Nat × Nat) :=
    (List.range nb).flatMap fun i => (List.range nb).flatMap fun j => (List.range 3).map fun k => (i, j, k)
  have hmem : ∀ t, t ∈ ts ↔ t.1 < nb ∧ t.2.1 < nb ∧ t.2.2 < 3 := by
    rintro ⟨i, j, k⟩
    simp only [ts, List.mem_flatMap, List.mem_map, List.mem_range, Prod.mk.injEq]
    constructor
    · rintro ⟨_, h1, _, h2, _, h3, rfl, rfl, rfl⟩; exact ⟨h1, h2, h3⟩
    · rintro ⟨h1, h2, h3⟩; exact ⟨i, h1, j, h2, k, h3, rfl, rfl, rfl⟩
  have htn : ts.Nodup := by
    refine List.nodup_flatMap.mpr ⟨fun i _ => List.nodup_flatMap.mpr ⟨fun j _ => ?_, ?_⟩, ?_⟩
    · refine List.Nodup.map ?_ List.nodup_range
      intro a b e
      simpa using e
    · refine List.nodup_range.imp ?_
      intro a b hab x ha hb
      simp only [List.mem_map] at ha hb
      obtain ⟨_, _, rfl⟩ := ha
      obtain ⟨_, _, e⟩ := hb
      simp only [Prod.mk.injEq] at e
      exact hab e.2.1.symm
    · refine List.nodup_range.imp ?_
      intro a b hab x ha hb
      simp only [List.mem_flatMap, List.mem_map] at ha hb
      obtain ⟨_, _, _, _, rfl⟩ := ha
      obtain ⟨_, _, _, _, e⟩ := hb
      simp only [Prod.mk.injEq] at e
      exact hab e.1.symm
  obtain ⟨xs, h1, h2, h3⟩ := column_written (nb * nb * 3) ts (fun t => t.1 * nb * 3 + t.2.1 * 3 + t.2.2)
    (fun t => v t.1 t.2.1 t.2.2) (by
      refine htn.map_on ?_
      rintro ⟨i, j, k⟩ hx ⟨i', j', k'⟩ hy e
      obtain ⟨a1, a2, a3⟩ := (hmem _).mp hx
      obtain ⟨b1, b2, b3⟩ := (hmem _).mp hy
      simp only at e a1 a2 a3 b1 b2 b3
      have e' : (i * nb + j) * 3 + k = (i' * nb + j') * 3 + k' := by
        rw [Nat.add_mul, Nat.add_mul]; exact e
      obtain ⟨c1, c2⟩ := two_inj a3 b3 e'
      obtain ⟨c3, c4⟩ := two_inj a2 b2 c1
      simp [c2, c3, c4]) (by
      intro t ht
      obtain ⟨a1, a2, a3⟩ := (hmem _).mp ht
      exact three_lt a1 a2 a3)
  refine ⟨xs, ?_, h2, fun i j k hi hj hk => h3 (i, j, k) ((hmem _).mpr ⟨hi, hj, hk⟩)⟩
  unfold velocityColumn
  rw [mapOutcome_eq_map _ (fun t : Nat × Nat × Nat => (t.1 * nb * 3 + t.2.1 * 3 + t.2.2, v t.1 t.2.1 t.2.2))]
  · exact h1
  · intro t ht
    obtain ⟨a1, a2, a3⟩ := (hmem _).mp ht
    have := compress3_nat a1 a2 a3 hfit
    rw [show ((3 : Nat) : Int) = 3 from rfl] at this
    rw [this]
    rfl

theorem vectorColumn_spec {γ : Type} [Zero γ] (nb : Nat) (u : Nat → Nat → γ)
    (hfit : ((nb * nb : Nat) : Int) ≤ intMax) :
    ∃ xs, vectorColumn nb u = .ok xs ∧ xs.length = nb * nb ∧
      ∀ i j, i < nb → j < nb → readAt xs (i * nb + j) = .ok (u i j) := by
  let ts : List (Nat × Nat) := (List.range nb).flatMap fun i => (List.range nb).map fun j => (i, j)
  have hmem : ∀ t, t ∈ ts ↔ t.1 < nb ∧ t.2 < nb := by
    rintro ⟨i, j⟩
    simp only [ts, List.mem_flatMap, List.mem_map, List.mem_range, Prod.mk.injEq]
    constructor
    · rintro ⟨_, h1, _, h2, rfl, rfl⟩; exact ⟨h1, h2⟩
    · rintro ⟨h1, h2⟩; exact ⟨i, h1, j, h2, rfl, rfl⟩
  have htn : ts.Nodup := nodup_grid _ _
  obtain ⟨xs, h1, h2, h3⟩ := column_written (nb * nb) ts (fun t => t.1 * nb + t.2) (fun t => u t.1 t.2) (by
      refine htn.map_on ?_
      rintro ⟨i, j⟩ hx ⟨i', j'⟩ hy e
      obtain ⟨a1, a2⟩ := (hmem _).mp hx
      obtain ⟨b1, b2⟩ := (hmem _).mp hy
      obtain ⟨c1, c2⟩ := two_inj a2 b2 e
      exact Prod.ext c1 c2) (by
      intro t ht
      obtain ⟨a1, a2⟩ := (hmem _).mp ht
      exact two_lt a1 a2)
  refine ⟨xs, ?_, h2, fun i j hi hj => h3 (i, j) ((hmem _).mpr ⟨hi, hj⟩)⟩
  unfold vectorColumn
  rw [mapOutcome_eq_map _ (fun t : Nat × Nat => (t.1 * nb + t.2, u t.1 t.2))]
  · exact h1
  · intro t ht
    obtain ⟨a1, a2⟩ := (hmem _).mp ht
    rw [compress2_nat a1 a2 hfit]
    rfl

/-! ### The band structure -/

/-- The invariant of a band structure: shapes of its matrices. -/
structure FullGood {α γ : Type} (rank nb np : Nat) (withVel withVec : Bool) (loc : Nat → Prop) (F : FullBands α γ) :
    Prop where
  bands : F.numBands = nb
  points : F.numPoints = np
  vel : F.hasVelocities = withVel
  vec : F.hasEigenvectors = withVec
  e : BandGood rank nb np loc F.energies
  v : withVel = true → BandGood rank (nb * nb * 3) np loc F.velocities
  u : withVec = true → BandGood rank (nb * nb) np loc F.eigenvectors

theorem run_spec {κ α γ : Type} [Zero α] [Zero γ] (H : HamView κ α γ) (coords : Nat → κ) {rank nb np : Nat}
    {withVel withVec : Bool} {loc : Nat → Prop} (hb : 0 < nb) (hfit : ((nb * nb * 3 : Nat) : Int) ≤ intMax)
    (ss : List FullStore) (F : FullBands α γ) (hF : FullGood rank nb np withVel withVec loc F)
    (hin : ∀ s ∈ ss, s.point < np ∧ loc s.point)
    (hv : withVel = false → ∀ ik, FullStore.velocities ik ∉ ss)
    (hu : withVec = false → ∀ ik, FullStore.eigenvectors ik ∉ ss) :
    ∃ F', fullRun H coords rank ss F = .ok F' ∧ FullGood rank nb np withVel withVec loc F' ∧
      (∀ ik < np, ∀ ib < nb, F'.energies.get rank ib ik =
        if FullStore.energies ik ∈ ss then .ok (H.energy (coords ik) ib) else F.energies.get rank ib ik) ∧
      (withVel = true → ∀ ik < np, ∀ i j k, i < nb → j < nb → k < 3 →
        F'.velocities.get rank (i * nb * 3 + j * 3 + k) ik =
          if FullStore.velocities ik ∈ ss then .ok (H.velocity (coords ik) i j k)
          else F.velocities.get rank (i * nb * 3 + j * 3 + k) ik) ∧
      (withVec = true → ∀ ik < np, ∀ i j, i < nb → j < nb →
        F'.eigenvectors.get rank (i * nb + j) ik =
          if FullStore.eigenvectors ik ∈ ss then .ok (H.vector (coords ik) i j)
          else F.eigenvectors.get rank (i * nb + j) ik) := by
  have hnn : 0 < nb * nb := Nat.mul_pos hb hb
  induction ss generalizing F with
  | nil => exact ⟨F, rfl, hF, by simp, by simp, by simp⟩
  | cons s t ih =>
    obtain ⟨hs1, hs2⟩ := hin s (by simp)
    have hin' : ∀ s ∈ t, s.point < np ∧ loc s.point := fun x hx => hin x (by simp [hx])
    have hv' : withVel = false → ∀ ik, FullStore.velocities ik ∉ t := fun h ik hx => hv h ik (by simp [hx])
    have hu' : withVec = false → ∀ ik, FullStore.eigenvectors ik ∉ t := fun h ik hx => hu h ik (by simp [hx])
    unfold fullRun foldOutcome
    cases s with
    | energies ik =>
      simp only [FullStore.point] at hs1 hs2
      obtain ⟨m, e1, g1, v1⟩ := band_setColumn hF.e hb hs1 hs2
        ((List.range nb).map (H.energy (coords ik))) (by simp)
      have hrun : FullStore.run H coords rank (.energies ik) F = .ok { F with energies := m } := by
        unfold FullStore.run FullBands.setEnergies
        simp only [hF.bands, e1]; rfl
      obtain ⟨F', r1, r2, r3, r4, r5⟩ := ih { F with energies := m }
        ⟨hF.bands, hF.points, hF.vel, hF.vec, g1, hF.v, hF.u⟩ hin' hv' hu'
      refine ⟨F', ?_, r2, ?_, ?_, ?_⟩
      · rw [hrun]; exact r1
      · intro k hk ib hib
        rw [r3 k hk ib hib, v1 ib k hib hk]
        by_cases e : k = ik
        · subst e
          have : readAt ((List.range nb).map (H.energy (coords k))) ib = .ok (H.energy (coords k) ib) := by
            unfold readAt; simp [hib]
          simp [this]
        · have : FullStore.energies k ≠ FullStore.energies ik := fun h => e (by injection h)
          simp [e, this]
      · intro hw k hk i j c hi hj hc
        rw [r4 hw k hk i j c hi hj hc]
        simp
      · intro hw k hk i j hi hj
        rw [r5 hw k hk i j hi hj]
        simp
    | velocities ik =>
      have hw : withVel = true := by
        cases withVel
        · exact absurd (List.mem_cons_self) (hv rfl ik)
        · rfl
      simp only [FullStore.point] at hs1 hs2
      obtain ⟨xs, x1, x2, x3⟩ := velocityColumn_spec nb (H.velocity (coords ik)) hfit
      obtain ⟨m, e1, g1, v1⟩ := band_setColumn (hF.v hw) (by omega) hs1 hs2 xs x2
      have hrun : FullStore.run H coords rank (.velocities ik) F = .ok { F with velocities := m } := by
        unfold FullStore.run FullBands.setVelocities
        simp only [hF.bands, hF.vel, hw, if_true]
        rw [x1]
        show (F.velocities.setColumn rank ik xs).bind _ = _
        rw [e1]; rfl
      obtain ⟨F', r1, r2, r3, r4, r5⟩ := ih { F with velocities := m }
        ⟨hF.bands, hF.points, hF.vel, hF.vec, hF.e, fun _ => g1, hF.u⟩ hin' hv' hu'
      refine ⟨F', ?_, r2, ?_, ?_, ?_⟩
      · rw [hrun]; exact r1
      · intro k hk ib hib
        rw [r3 k hk ib hib]
        simp
      · intro _ k hk i j c hi hj hc
        rw [r4 hw k hk i j c hi hj hc, v1 _ k (three_lt hi hj hc) hk]
        by_cases e : k = ik
        · subst e
          simp [x3 i j c hi hj hc]
        · have : FullStore.velocities k ≠ FullStore.velocities ik := fun h => e (by injection h)
          simp [e, this]
      · intro hw k hk i j hi hj
        rw [r5 hw k hk i j hi hj]
        simp
    | eigenvectors ik =>
      have hw : withVec = true := by
        cases withVec
        · exact absurd (List.mem_cons_self) (hu rfl ik)
        · rfl
      simp only [FullStore.point] at hs1 hs2
      obtain ⟨xs, x1, x2, x3⟩ := vectorColumn_spec nb (H.vector (coords ik)) (by omega)
      obtain ⟨m, e1, g1, v1⟩ := band_setColumn (hF.u hw) hnn hs1 hs2 xs x2
      have hrun : FullStore.run H coords rank (.eigenvectors ik) F = .ok { F with eigenvectors := m } := by
        unfold FullStore.run FullBands.setEigenvectors
        simp only [hF.bands, hF.vec, hw, if_true]
        rw [x1]
        show (F.eigenvectors.setColumn rank ik xs).bind _ = _
        rw [e1]; rfl
      obtain ⟨F', r1, r2, r3, r4, r5⟩ := ih { F with eigenvectors := m }
        ⟨hF.bands, hF.points, hF.vel, hF.vec, hF.e, hF.v, fun _ => g1⟩ hin' hv' hu'
      refine ⟨F', ?_, r2, ?_, ?_, ?_⟩
      · rw [hrun]; exact r1
      · intro k hk ib hib
        rw [r3 k hk ib hib]
        simp
      · intro hw k hk i j c hi hj hc
        rw [r4 hw k hk i j c hi hj hc]
        simp
      · intro _ k hk i j hi hj
        rw [r5 hw k hk i j hi hj, v1 _ k (two_lt hi hj) hk]
        by_cases e : k = ik
        · subst e
          simp [x3 i j hi hj]
        · have : FullStore.eigenvectors k ≠ FullStore.eigenvectors ik := fun h => e (by injection h)
          simp [e, this]

/-! ### Reading -/

section Reading
variable {κ α γ : Type} [Zero α] [Zero γ] {rank nb np : Nat} {withVel withVec : Bool} {loc : Nat → Prop}
  {F : FullBands α γ} {ik : Nat}

theorem read_energies (hF : FullGood rank nb np withVel withVec loc F) (hk : ik < np) (hl : loc ik)
    (hfit : ((np * nb : Nat) : Int) ≤ intMax) (H : HamView κ α γ) (k : κ)
    (h : ∀ ib < nb, F.energies.get rank ib ik = .ok (H.energy k ib)) : EnergiesAt F H k rank ik := by
  refine ⟨fun ib hib => ?_, fun ib hib => ?_, ?_⟩
  · rw [hF.bands] at hib
    unfold FullBands.getEnergy
    rw [if_pos ((band_holds hF.e ib ik hk).mpr hl), h ib hib]
  · rw [hF.bands] at hib
    unfold FullBands.getStateEnergy
    rw [hF.bands, hF.points, decompress2_nat hib hk hfit]
    simp only [Outcome.bind_eq, Outcome.bind, Int.toNat_natCast]
    rw [if_pos ((band_holds hF.e ib ik hk).mpr hl), h ib hib]
  · unfold FullBands.getEnergies
    rw [if_pos ((band_holds hF.e 0 ik hk).mpr hl), hF.bands]
    exact mapOutcome_eq_map _ _ _ (fun ib hib => h ib (by simpa using hib))

theorem read_velocities (hF : FullGood rank nb np true withVec loc F) (hk : ik < np) (hl : loc ik)
    (hfit : ((np * nb : Nat) : Int) ≤ intMax) (hfit' : ((nb * nb * 3 : Nat) : Int) ≤ intMax)
    (H : HamView κ α γ) (re : γ → α) (k : κ)
    (h : ∀ i j c, i < nb → j < nb → c < 3 →
      F.velocities.get rank (i * nb * 3 + j * 3 + c) ik = .ok (H.velocity k i j c)) :
    VelocitiesAt F H re k rank ik := by
  have hc : ∀ i j c : Nat, i < nb → j < nb → c < 3 → compress3Indices i j c nb nb 3 =
      .ok ((i * nb * 3 + j * 3 + c : Nat) : Int) := by
    intro i j c h1 h2 h3
    exact compress3_nat h1 h2 h3 hfit'
  have hone : ∀ ib, ib < nb → mapOutcome (fun i : Nat => (do
      let ind ← compress3Indices ib ib i nb nb 3
      let v ← F.velocities.get rank ind.toNat ik
      .ok (re v) : Outcome α)) (List.range 3) = .ok ((List.range 3).map fun i => re (H.velocity k ib ib i)) := by
    intro ib hib
    apply mapOutcome_eq_map
    intro i hi
    rw [hc ib ib i hib hib (by simpa using hi)]
    simp only [Outcome.bind_eq, Outcome.bind, Int.toNat_natCast]
    rw [h ib ib i hib hib (by simpa using hi)]
  refine ⟨fun ib hib => ?_, ?_, ?_⟩
  · rw [hF.bands] at hib
    unfold FullBands.getGroupVelocity
    rw [hF.bands, hF.points, decompress2_nat hib hk hfit]
    simp only [Outcome.bind_eq, Outcome.bind, Int.toNat_natCast]
    rw [if_pos ((band_holds (hF.v rfl) ib ik hk).mpr hl)]
    have := hone ib hib
    simp only [Outcome.bind_eq, Outcome.bind] at this
    exact this
  · unfold FullBands.getGroupVelocities
    rw [if_pos ((band_holds (hF.v rfl) 0 ik hk).mpr hl), hF.bands]
    exact mapOutcome_eq_map _ _ _ (fun ib hib => hone ib (by simpa using hib))
  · unfold FullBands.getVelocities
    rw [if_pos ((band_holds (hF.v rfl) 0 ik hk).mpr hl), hF.bands]
    refine mapOutcome_eq_map _ _ _ (fun i hi => ?_)
    refine mapOutcome_eq_map _ _ _ (fun j hj => ?_)
    refine mapOutcome_eq_map _ _ _ (fun c hc' => ?_)
    rw [hc i j c (by simpa using hi) (by simpa using hj) (by simpa using hc')]
    simp only [Outcome.bind_eq, Outcome.bind, Int.toNat_natCast]
    exact h i j c (by simpa using hi) (by simpa using hj) (by simpa using hc')

theorem read_vectors (hF : FullGood rank nb np withVel true loc F) (hk : ik < np) (hl : loc ik)
    (hfit' : ((nb * nb * 3 : Nat) : Int) ≤ intMax) (H : HamView κ α γ) (k : κ)
    (h : ∀ i j, i < nb → j < nb → F.eigenvectors.get rank (i * nb + j) ik = .ok (H.vector k i j)) :
    VectorsAt F H k rank ik := by
  refine ⟨?_, ?_⟩
  · unfold FullBands.getEigenvectors
    rw [if_pos ((band_holds (hF.u rfl) 0 ik hk).mpr hl), hF.bands]
    refine mapOutcome_eq_map _ _ _ (fun i hi => ?_)
    refine mapOutcome_eq_map _ _ _ (fun j hj => ?_)
    rw [compress2_nat (by simpa using hi) (by simpa using hj) (by omega)]
    simp only [Outcome.bind_eq, Outcome.bind, Int.toNat_natCast]
    exact h i j (by simpa using hi) (by simpa using hj)
  · unfold FullBands.getPhEigenvectors
    rw [if_pos ((band_holds (hF.u rfl) 0 ik hk).mpr hl), hF.bands]
    refine mapOutcome_eq_map _ _ _ (fun c hc => ?_)
    refine mapOutcome_eq_map _ _ _ (fun i hi => ?_)
    refine mapOutcome_eq_map _ _ _ (fun j hj => ?_)
    rw [List.mem_range] at hc hi hj
    have h3 : nb / 3 * 3 ≤ nb := Nat.div_mul_le_self nb 3
    have hle : nb / 3 * 3 * nb ≤ nb * nb := Nat.mul_le_mul_right _ h3
    have := compress3_nat hi hc hj (by omega : ((nb / 3 * 3 * nb : Nat) : Int) ≤ intMax)
    rw [show ((3 : Nat) : Int) = 3 from rfl] at this
    rw [this]
    simp only [Outcome.bind_eq, Outcome.bind, Int.toNat_natCast]
    have e := h (3 * i + c) j (by omega) hj
    rw [show i * 3 * nb + c * nb + j = (3 * i + c) * nb + j by ring]
    exact e

theorem read_refused (hF : FullGood rank nb np withVel withVec loc F) (hk : ik < np) (hl : ¬ loc ik)
    (hfit : ((np * nb : Nat) : Int) ≤ intMax) (re : γ → α) : RefusesPoint F re rank ik := by
  have he : ∀ row, ¬ F.energies.holds rank row ik = true := fun row hh => hl ((band_holds hF.e row ik hk).mp hh)
  refine ⟨fun ib hib => ⟨?_, ?_⟩, ?_, fun hv => ?_, fun hu => ?_⟩
  · unfold FullBands.getEnergy
    rw [if_neg (he ib)]
  · rw [hF.bands] at hib
    unfold FullBands.getStateEnergy
    rw [hF.bands, hF.points, decompress2_nat hib hk hfit]
    simp only [Outcome.bind_eq, Outcome.bind, Int.toNat_natCast]
    rw [if_neg (he ib)]
  · unfold FullBands.getEnergies
    rw [if_neg (he 0)]
  · rw [hF.vel] at hv
    have hh : ∀ row, ¬ F.velocities.holds rank row ik = true :=
      fun row hh => hl ((band_holds (hF.v hv) row ik hk).mp hh)
    refine ⟨fun ib hib => ?_, ?_, ?_⟩
    · rw [hF.bands] at hib
      unfold FullBands.getGroupVelocity
      rw [hF.bands, hF.points, decompress2_nat hib hk hfit]
      simp only [Outcome.bind_eq, Outcome.bind, Int.toNat_natCast]
      rw [if_neg (hh ib)]
    · unfold FullBands.getGroupVelocities
      rw [if_neg (hh 0)]
    · unfold FullBands.getVelocities
      rw [if_neg (hh 0)]
  · rw [hF.vec] at hu
    have hh : ∀ row, ¬ F.eigenvectors.holds rank row ik = true :=
      fun row hh => hl ((band_holds (hF.u hu) row ik hk).mp hh)
    refine ⟨?_, ?_⟩
    · unfold FullBands.getEigenvectors
      rw [if_neg (hh 0)]
    · unfold FullBands.getPhEigenvectors
      rw [if_neg (hh 0)]

end Reading

/-! ### Construction -/

theorem band_make {α : Type} [Zero α] {size rows np rank : Nat} (hs : 0 < size) (hrows : 0 < rows) (hle : size ≤ np)
    (hr : rank < size) (distributed : Bool) :
    ∃ m : BandMat α, BandMat.make size rows np distributed = .ok m ∧
      BandGood rank rows np (fun c => distributed = true → rank = own (blockSize np size) size c) m ∧
      (∀ r < rows, ∀ c < np, m.get rank r c = .ok 0) ∧
      (distributed = true → ∃ L d, m = .parallel L d ∧ fullLayout size rows np = .ok L) ∧
      (distributed = false → m = .serial (SMat.zeros rows np)) := by
  cases distributed with
  | true =>
    obtain ⟨L, e, hG, h1, h2, h3, h4, h5, h6⟩ := (C35_accepts size rows np hs hrows).2 hle
    have e' : mkLayout size rows np 1 (min size np) 0 0 = .ok L := by
      unfold fullLayout at e
      simp only at e
      rw [if_neg (by omega)] at e
      exact e
    refine ⟨.parallel L fun _ _ _ => 0, ?_, ⟨hG, h1, h2, h3, h5, by omega, ?_⟩, ?_, fun _ => ⟨L, _, rfl, e⟩, by simp⟩
    · unfold BandMat.make
      rw [if_pos rfl, e']; rfl
    · intro c _
      rw [h4, h6]; simp
    · intro r _ c _
      show Outcome.ok _ = _
      unfold Layout.get
      simp
  | false =>
    refine ⟨.serial (SMat.zeros rows np), rfl, ⟨?_, rfl, rfl, by simp⟩, ?_, by simp, fun _ => rfl⟩
    · simp [SMat.WF, SMat.zeros]
    · intro r hr c hc
      exact (C24_zeros rows np r c hr hc).2

theorem full_make {α γ : Type} [Zero α] [Zero γ] {size nb np rank : Nat} (hs : 0 < size) (hb : 0 < nb) (hle : size ≤ np)
    (hr : rank < size) (phonon withVel withVec distributed : Bool) (hph : phonon = true → 3 ∣ nb) :
    ∃ F : FullBands α γ, FullBands.make size nb np phonon withVel withVec distributed = .ok F ∧
      FullGood rank nb np withVel withVec (fun c => distributed = true → rank = own (blockSize np size) size c) F ∧
      (withVec = true → ∀ r < nb * nb, ∀ c < np, F.eigenvectors.get rank r c = .ok 0) ∧
      (distributed = true → ∃ L d, F.energies = .parallel L d ∧ fullLayout size nb np = .ok L) ∧
      (distributed = false → F.energies = .serial (SMat.zeros nb np)) := by
  have hnn : 0 < nb * nb := Nat.mul_pos hb hb
  obtain ⟨e, e1, e2, e3, e4, e5⟩ := band_make (α := α) hs hb hle hr distributed
  obtain ⟨v, v1, v2, v3, _, _⟩ := band_make (α := γ) hs (by omega : 0 < nb * nb * 3) hle hr distributed
  obtain ⟨u, u1, u2, u3, _, _⟩ := band_make (α := γ) hs hnn hle hr distributed
  have hrows : (if phonon then 3 * (nb / 3) * nb else nb * nb) = nb * nb := by
    cases phonon with
    | false => rfl
    | true =>
      have := Nat.mul_div_cancel' (hph rfl)
      simp only [if_true, this]
  refine ⟨⟨nb, np, withVel, withVec, e, if withVel then v else .empty, if withVec then u else .empty⟩, ?_,
    ⟨rfl, rfl, rfl, rfl, e2, ?_, ?_⟩, ?_, e4, e5⟩
  · unfold FullBands.make
    rw [if_neg (by omega), e1, hrows, v1, u1]
    cases withVel <;> cases withVec <;> rfl
  · intro h; simp only [h, if_true]; exact v2
  · intro h; simp only [h, if_true]; exact u2
  · intro h; simp only [h, if_true]; exact u3

/-! ### Wavevectors of a process -/

theorem toSortedSet_spec (l : List Nat) :
    (toSortedSet l).Pairwise (· < ·) ∧ ∀ x, x ∈ toSortedSet l ↔ x ∈ l := by
  have : ∀ (l acc : List Nat), acc.Pairwise (· < ·) → (l.foldl (fun s x => setInsert x s) acc).Pairwise (· < ·) ∧
      ∀ x, x ∈ l.foldl (fun s x => setInsert x s) acc ↔ x ∈ acc ∨ x ∈ l := by
    intro l
    induction l with
    | nil => intro acc h; exact ⟨h, by simp⟩
    | cons a t ih =>
      intro acc h
      obtain ⟨h1, h2⟩ := ih (setInsert a acc) (sorted_setInsert a acc h)
      refine ⟨h1, fun x => ?_⟩
      rw [List.foldl_cons, h2 x, mem_setInsert]
      simp only [List.mem_cons]; tauto
  have h := this l [] List.Pairwise.nil
  exact ⟨h.1, fun x => by rw [toSortedSet, h.2 x]; simp⟩

theorem increasing_ext {l1 l2 : List Nat} (h1 : l1.Pairwise (· < ·)) (h2 : l2.Pairwise (· < ·))
    (h : ∀ x, x ∈ l1 ↔ x ∈ l2) : l1 = l2 := by
  have n1 : l1.Nodup := h1.imp (fun h => Nat.ne_of_lt h)
  have n2 : l2.Nodup := h2.imp (fun h => Nat.ne_of_lt h)
  exact ((List.perm_ext_iff_of_nodup n1 n2).mpr h).eq_of_pairwise
    (fun a b _ _ h h' => by omega) h1 h2

theorem band_elems {α : Type} {rank rows cols : Nat} {loc : Nat → Prop} {m : BandMat α}
    (h : BandGood rank rows cols loc m) (hr : 0 < rows) :
    ∃ l, m.localElems rank = .ok l ∧ l.Nodup ∧ l.length = rows * m.localCols rank ∧
      ∀ t, t ∈ l ↔ t.1 < rows ∧ t.2 < cols ∧ loc t.2 := by
  cases m with
  | serial m =>
    obtain ⟨_, rfl, rfl, hloc⟩ := h
    refine ⟨(List.range (m.numRows * m.numCols)).map fun k => (k - k / m.numRows * m.numRows, k / m.numRows), ?_, ?_,
      by simp [BandMat.localCols], ?_⟩
    · refine mapOutcome_eq_map _ _ _ (fun k _ => ?_)
      unfold SMat.local2Global
      rw [if_neg (by omega)]
    · refine (List.nodup_map_iff_inj_on List.nodup_range).mpr ?_
      intro a _ b _ e
      simp only [Prod.mk.injEq] at e
      have ha := Nat.div_mul_le_self a m.numRows
      have hb := Nat.div_mul_le_self b m.numRows
      rw [e.2] at ha e
      omega
    · rintro ⟨i, j⟩
      simp only [List.mem_map, List.mem_range, Prod.mk.injEq]
      constructor
      · rintro ⟨k, hk, rfl, rfl⟩
        have hd := Nat.div_add_mod' k m.numRows
        have hm := Nat.mod_lt k hr
        have hc := Nat.div_lt_of_lt_mul hk
        exact ⟨by omega, hc, hloc _ hc⟩
      · rintro ⟨hi, hj, _⟩
        have e : (j * m.numRows + i) / m.numRows = j := by
          rw [Nat.add_comm, Nat.add_mul_div_right _ _ hr, Nat.div_eq_of_lt hi, Nat.zero_add]
        refine ⟨j * m.numRows + i, ?_, ?_, e⟩
        · have := two_lt hj hi
          rwa [Nat.mul_comm m.numRows]
        · rw [e]; omega
  | parallel L d =>
    have hg := h
    obtain ⟨hG, h1, h2, h3, h4, h5, h6⟩ := h
    refine ⟨_, rfl, nodup_localStates L hG (by omega) h5, ?_, ?_⟩
    · have := band_localRows hg hr
      simp only [BandMat.localRows] at this
      simp [Layout.getAllLocalStates, Layout.localElements, this, BandMat.localCols]
    · intro t
      rw [mem_localStates L hG (by omega) h5, global2Local_ne, h1, h2, h3, own_one]
      constructor
      · rintro ⟨a, b, _, c⟩; exact ⟨a, b, (h6 _ b).mpr c⟩
      · rintro ⟨a, b, c⟩; exact ⟨a, b, rfl, (h6 _ b).mp c⟩

theorem wavevectors_spec {α γ : Type} {rank nb np : Nat} {withVel withVec : Bool} {loc : Nat → Prop}
    {F : FullBands α γ} (hF : FullGood rank nb np withVel withVec loc F) (hb : 0 < nb) :
    ∃ iks, F.wavevectorIndices rank = .ok iks ∧ iks.Pairwise (· < ·) ∧ (∀ ik, ik ∈ iks ↔ ik < np ∧ loc ik) ∧
      iks.length = F.energies.localCols rank := by
  obtain ⟨l, h1, h2, h3, h4⟩ := band_elems hF.e hb
  obtain ⟨g1, g2⟩ := toSortedSet_spec (l.map (·.2))
  have hmem : ∀ ik, ik ∈ toSortedSet (l.map (·.2)) ↔ ik < np ∧ loc ik := by
    intro ik
    rw [g2 ik, List.mem_map]
    constructor
    · rintro ⟨t, ht, rfl⟩; exact ((h4 t).mp ht).2
    · rintro hik; exact ⟨(0, ik), (h4 _).mpr ⟨hb, hik⟩, rfl⟩
  refine ⟨toSortedSet (l.map (·.2)), ?_, g1, hmem, ?_⟩
  · unfold FullBands.wavevectorIndices
    rw [h1]; rfl
  · have hn : (toSortedSet (l.map (·.2))).Nodup := g1.imp (fun h => Nat.ne_of_lt h)
    have hp : l.Perm (List.range nb ×ˢ toSortedSet (l.map (·.2))) := by
      refine (List.perm_ext_iff_of_nodup h2 (List.nodup_range.product hn)).mpr ?_
      rintro ⟨i, j⟩
      rw [List.mem_product, h4, hmem, List.mem_range]
    have := hp.length_eq
    rw [List.length_product, h3, List.length_range] at this
    exact (Nat.eq_of_mul_eq_mul_left hb this).symm

end Verif.Props
