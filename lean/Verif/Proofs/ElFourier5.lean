import Verif.Proofs.ElFourier4
import Verif.Model.ElFourier

/-!
# Fourier interpolation: periodicity, skewed cells, bands in a window
-/
namespace Verif.Model

theorem vdot_add (k k' r : Vec3) : vdot (k + k') r = vdot k r + vdot k' r := by
  simp only [vdot, Pi.add_apply]; ring

theorem recip_dot {d b : Mat3} (h : DualCells d b) (m i : V3 Int) :
    ∃ z : ℤ, vdot (matVec b (toVec m)) (matVec d (toVec i)) = z * (2 * Real.pi) := by
  refine ⟨m.x * i.x + m.y * i.y + m.z * i.z, ?_⟩
  rw [dual_dot h, Fin.sum_univ_three]
  simp only [toVec, Matrix.cons_val_zero, Matrix.cons_val_one, Matrix.cons_val]
  push_cast
  ring

theorem exp_periodic (x : ℝ) (z : ℤ) :
    Complex.exp (Complex.I * ((x + z * (2 * Real.pi) : ℝ) : ℂ)) = Complex.exp (Complex.I * (x : ℂ)) := by
  rw [show (Complex.I * ((x + z * (2 * Real.pi) : ℝ) : ℂ)) = Complex.I * (x : ℂ) + z * (2 * Real.pi * Complex.I) by
    push_cast; ring, Complex.exp_add, Complex.exp_int_mul_two_pi_mul_I, mul_one]

theorem star_periodic {d b : Mat3} (h : DualCells d b) (k : Vec3) (m : V3 Int) (p : RVec) (i : V3 Int)
    (hp : p.1 = matVec d (toVec i)) :
    starFunction (k + matVec b (toVec m)) p = starFunction k p ∧
    ∀ a, starDerivative (k + matVec b (toVec m)) p a = starDerivative k p a := by
  obtain ⟨z, hz⟩ := recip_dot h m i
  unfold starFunction starDerivative
  rw [vdot_add, hp, hz, exp_periodic]
  exact ⟨rfl, fun _ => rfl⟩

theorem energy_periodic {d b : Mat3} (h : DualCells d b) (vecs : List RVec) (c : List ℂ) (k : Vec3) (m : V3 Int)
    (hv : ∀ p ∈ vecs, ∃ i, p.1 = matVec d (toVec i)) :
    fourierEnergy vecs c (k + matVec b (toVec m)) = fourierEnergy vecs c k ∧
    fourierVelocity vecs c (k + matVec b (toVec m)) = fourierVelocity vecs c k := by
  have key : ∀ q ∈ c.zip vecs, starFunction (k + matVec b (toVec m)) q.2 = starFunction k q.2 ∧
      ∀ a, starDerivative (k + matVec b (toVec m)) q.2 a = starDerivative k q.2 a := by
    intro q hq
    obtain ⟨i, hi⟩ := hv q.2 (List.of_mem_zip (a := q.1) (b := q.2) hq).2
    exact star_periodic h k m q.2 i hi
  constructor
  · unfold fourierEnergy
    rw [foldl_add_list, foldl_add_list]
    refine congrArg _ (congrArg _ (List.map_congr_left fun q hq => ?_))
    rw [(key q hq).1]
  · funext a
    unfold fourierVelocity
    rw [foldl_add_list, foldl_add_list]
    refine congrArg _ (congrArg _ (List.map_congr_left fun q hq => ?_))
    rw [(key q hq).2 a]

/-! ## A skewed cell -/

/-- Lattice vectors `(1, 0, 0)`, `(10, 1, 0)`, `(0, 0, 1)`. -/
noncomputable def skewCell : Mat3 := fun i j => if i = j then 1 else if i = 0 ∧ j = 1 then 10 else 0

theorem skew_vec (v : Vec3) : matVec skewCell v = ![v 0 + 10 * v 1, v 1, v 2] := by
  funext k
  fin_cases k <;> simp [matVec, skewCell, vdot]

theorem skew_sq (i : V3 Int) : vnorm (matVec skewCell (toVec i)) ^ 2 =
    (((i.x + 10 * i.y) ^ 2 + i.y ^ 2 + i.z ^ 2 : Int) : ℝ) := by
  rw [vnorm_sq, skew_vec]
  simp [toVec]

theorem skew_far {a b : ℝ} (ha : 0 ≤ a) (ha2 : a ≤ 20) (hsq : b ^ 2 + 1 ≤ a ^ 2) (hb : 0 ≤ b) : ¬ |a - b| < 1 / 1000000 := by
  intro h
  have h2 := (abs_lt.mp h).2
  have hba : b ≤ a := by nlinarith
  have : a ^ 2 - b ^ 2 = (a - b) * (a + b) := by ring
  nlinarith

/-- No vector with an odd second index is kept. -/
theorem skew_even (i : V3 Int) (hi : i ∈ wsBox ⟨1, 2, 1⟩ 1) (g : Nat)
    (h : wsDegeneracy (midOf 1) (wsDistances skewCell ⟨1, 2, 1⟩ 1 0 i) = .ok (some g)) : ¬ (i.y = 1 ∨ i.y = -1) := by
  intro hy
  rw [wsDegeneracy_val _ _ _ _ _ (by decide)] at h
  split_ifs at h with hc
  · unfold wsBox at hi
    rw [mem_zBox] at hi
    simp only at hi
    obtain ⟨j, hj, hsq⟩ : ∃ j ∈ zBox ⟨2, 2, 2⟩, vnorm (matVec skewCell (toVec (offsetBy ⟨1, 2, 1⟩ i j))) ^ 2 + 1 ≤
        vnorm (matVec skewCell (toVec i)) ^ 2 := by
      rcases hy with hy | hy
      · refine ⟨⟨2, 0, 0⟩, (mem_zBox _ _).mpr (by decide), ?_⟩
        have e : ((offsetBy ⟨1, 2, 1⟩ i ⟨2, 0, 0⟩).x + 10 * (offsetBy ⟨1, 2, 1⟩ i ⟨2, 0, 0⟩).y) ^ 2 +
            (offsetBy ⟨1, 2, 1⟩ i ⟨2, 0, 0⟩).y ^ 2 + (offsetBy ⟨1, 2, 1⟩ i ⟨2, 0, 0⟩).z ^ 2 + 1 ≤
            (i.x + 10 * i.y) ^ 2 + i.y ^ 2 + i.z ^ 2 := by
          simp only [offsetBy, hy]
          nlinarith
        rw [skew_sq, skew_sq]
        exact_mod_cast e
      · refine ⟨⟨-2, 0, 0⟩, (mem_zBox _ _).mpr (by decide), ?_⟩
        have e : ((offsetBy ⟨1, 2, 1⟩ i ⟨-2, 0, 0⟩).x + 10 * (offsetBy ⟨1, 2, 1⟩ i ⟨-2, 0, 0⟩).y) ^ 2 +
            (offsetBy ⟨1, 2, 1⟩ i ⟨-2, 0, 0⟩).y ^ 2 + (offsetBy ⟨1, 2, 1⟩ i ⟨-2, 0, 0⟩).z ^ 2 + 1 ≤
            (i.x + 10 * i.y) ^ 2 + i.y ^ 2 + i.z ^ 2 := by
          simp only [offsetBy, hy]
          nlinarith
        rw [skew_sq, skew_sq]
        exact_mod_cast e
    have hmem : vnorm (matVec skewCell (toVec (offsetBy ⟨1, 2, 1⟩ i j)) + 0) ∈ wsDistances skewCell ⟨1, 2, 1⟩ 1 0 i := by
      unfold wsDistances
      exact List.mem_map.mpr ⟨j, hj, rfl⟩
    rw [add_zero] at hmem hc
    have hle := (distMin_spec _ (List.ne_nil_of_mem hmem)).2 _ hmem
    have hin := (distMin_spec _ (List.ne_nil_of_mem hmem)).1
    have h0 : 0 ≤ distMin (wsDistances skewCell ⟨1, 2, 1⟩ 1 0 i) := by
      unfold wsDistances at hin ⊢
      obtain ⟨j', _, hj'⟩ := List.mem_map.mp hin
      rw [← hj']
      exact vnorm_nonneg _
    refine skew_far (vnorm_nonneg _) ?_ ?_ h0 hc
    · have e : vnorm (matVec skewCell (toVec i)) ^ 2 ≤ 20 ^ 2 := by
        rw [skew_sq]
        have : (i.x + 10 * i.y) ^ 2 + i.y ^ 2 + i.z ^ 2 ≤ 400 := by
          rcases hy with hy | hy <;> rw [hy] <;> nlinarith
        have h' : (((i.x + 10 * i.y) ^ 2 + i.y ^ 2 + i.z ^ 2 : Int) : ℝ) ≤ ((400 : Int) : ℝ) := by exact_mod_cast this
        norm_num at h' ⊢
        exact h'
      exact (sq_le_sq₀ (vnorm_nonneg _) (by norm_num)).mp e
    · have := vnorm_nonneg (matVec skewCell (toVec (offsetBy ⟨1, 2, 1⟩ i j)))
      nlinarith
  · cases h

theorem skew_noShort : NoShortVectors skewCell := by
  intro i hi
  have h1 : (1 : ℝ) ≤ vnorm (matVec skewCell (toVec i)) ^ 2 := by
    rw [skew_sq]
    have : 1 ≤ (i.x + 10 * i.y) ^ 2 + i.y ^ 2 + i.z ^ 2 := by
      by_contra hlt
      have h0 : (i.x + 10 * i.y) ^ 2 + i.y ^ 2 + i.z ^ 2 ≤ 0 := by omega
      have e1 : i.y = 0 := by
        by_contra h; have : 0 < i.y ^ 2 := by positivity
        nlinarith [sq_nonneg (i.x + 10 * i.y), sq_nonneg i.z]
      have e2 : i.z = 0 := by
        by_contra h; have : 0 < i.z ^ 2 := by positivity
        nlinarith [sq_nonneg (i.x + 10 * i.y), sq_nonneg i.y]
      have e3 : i.x = 0 := by
        rw [e1, e2] at h0
        by_contra h; have : 0 < i.x ^ 2 := by positivity
        nlinarith
      apply hi
      cases i
      simp only at e1 e2 e3
      rw [e1, e2, e3]
    exact_mod_cast this
  nlinarith [vnorm_nonneg (matVec skewCell (toVec i))]

theorem skew_makeCell : ∃ c, makeCell skewCell = .ok c ∧ c.direct = skewCell := by
  have : ¬ calcVolume skewCell ≤ 0 := by
    simp [calcVolume, skewCell, vcross, vdot]
    norm_num
  refine ⟨_, if_neg this, rfl⟩

theorem skew_star {b : Mat3} (h : DualCells skewCell b) (p : RVec) (m : V3 Int) (hp : p.1 = matVec skewCell (toVec m))
    (hm : 2 ∣ m.y) (i : Fin 2) :
    starFunction (matVec b (realCoords (meshCoordinates ⟨1, 2, 1⟩ ⟨0, 0, 0⟩ (i.1 : Nat)))) p =
      starFunction (matVec b (realCoords (meshCoordinates ⟨1, 2, 1⟩ ⟨0, 0, 0⟩ ((0 : Fin 2) : Nat)))) p := by
  have hp' : p = (matVec skewCell (toVec m), p.2) := by rw [← hp]
  rw [hp', star_unitWave h, star_unitWave h]
  have e0 : meshCoordinates ⟨1, 2, 1⟩ ⟨0, 0, 0⟩ (((0 : Fin 2) : Nat) : Int) = ⟨0, 0, 0⟩ := by decide +kernel
  have e1 : meshCoordinates ⟨1, 2, 1⟩ ⟨0, 0, 0⟩ (((1 : Fin 2) : Nat) : Int) = ⟨0, 1 / 2, 0⟩ := by decide +kernel
  obtain ⟨z, hz⟩ := hm
  have h0 : unitWave (∑ a, realCoords ⟨0, 0, 0⟩ a * toVec m a) = 1 := by
    simp [realCoords, Fin.sum_univ_three, unitWave_zero]
  have h1 : unitWave (∑ a, realCoords ⟨0, 1 / 2, 0⟩ a * toVec m a) = 1 := by
    rw [← unitWave_int z]
    refine congrArg _ ?_
    simp [realCoords, Fin.sum_univ_three, toVec, hz]
  fin_cases i
  · rfl
  · show unitWave (∑ a, realCoords (meshCoordinates ⟨1, 2, 1⟩ ⟨0, 0, 0⟩ (((1 : Fin 2) : Nat) : Int)) a * toVec m a) / _ =
      unitWave (∑ a, realCoords (meshCoordinates ⟨1, 2, 1⟩ ⟨0, 0, 0⟩ (((0 : Fin 2) : Nat) : Int)) a * toVec m a) / _
    rw [e0, e1, h0, h1]

/-- When the waves do not distinguish the points the energy of the first one comes out. -/
theorem flat_energy (solve : LinearSolver) (v : FourierVectors) {n : Nat} (k : Fin (n + 1) → Vec3)
    (e : Fin (n + 1) → ℝ) (rest : List RVec) (hv : v.vecs = (0, 1) :: rest)
    (hs : ∀ p ∈ v.vecs, ∀ i, starFunction (k i) p = starFunction (k 0) p) :
    ∃ c, getCoefficients solve v k e = .ok c ∧ ∀ i, fourierEnergy v.vecs c (k i) = e 0 := by
  obtain ⟨lam, hlam⟩ : ∃ lam, lam = getLagrangeMultipliers solve v k e := ⟨_, rfl⟩
  obtain ⟨f, hf⟩ : ∃ f : RVec → ℂ, f = fun p => (List.finRange n).foldl (fun c i => c + lam i *
      (starRingEnd ℂ) (starFunction (k i.succ) p - starFunction (k 0) p)) 0 / (roughness v.minDistance p.1 : ℂ) := ⟨_, rfl⟩
  obtain ⟨c0, hc0⟩ : ∃ c0 : ℂ, c0 = (e 0 : ℂ) - (rest.map fun p => f p * starFunction (k 0) p).sum := ⟨_, rfl⟩
  refine ⟨c0 :: rest.map f, ?_, ?_⟩
  · unfold getCoefficients
    rw [hv]
    simp only
    rw [← hlam, ← hf, foldl_sub_list, zip_map_self, List.map_map, hc0]
    rfl
  · intro i
    have e1 : (rest.map fun p => f p * starFunction (k i) p) = rest.map fun p => f p * starFunction (k 0) p :=
      List.map_congr_left fun p hp => by rw [hs p (by rw [hv]; simp [hp]) i]
    rw [hv, fourierEnergy_cons, starFunction_origin, mul_one, hc0, e1, sub_add_cancel, Complex.ofReal_re]

/-! ## Bands in a window -/

theorem filter_range_bands {γ : Type} (p : γ → Bool) (d : γ → Bool) (hd : ∀ x, d x = p x) (bands : List γ) :
    ((List.range bands.length).filter fun ib => (bands[ib]?.map d).getD false).filterMap (fun ib => bands[ib]?) =
      bands.filter p := by
  induction bands using List.reverseRecOn with
  | nil => rfl
  | append_singleton l b ih =>
    rw [List.length_append, List.length_singleton, List.range_succ, List.filter_append, List.filterMap_append,
      List.filter_append, ← ih]
    congr 1
    · have e1 : (List.range l.length).filter (fun ib => ((l ++ [b])[ib]?.map d).getD false) =
          (List.range l.length).filter fun ib => (l[ib]?.map d).getD false := by
        refine List.filter_congr fun i hi => ?_
        rw [List.getElem?_append_left (List.mem_range.mp hi)]
      rw [e1]
      refine List.filterMap_congr fun i hi => ?_
      rw [List.getElem?_append_left (List.mem_range.mp (List.mem_filter.mp hi).1)]
    · simp only [List.filter_cons, List.filter_nil, List.getElem?_concat_length, Option.map_some, Option.getD_some, hd]
      split <;> simp

theorem keepBand_iff {α : Type} [LinearOrder α] (lo hi : α) (l : List α) :
    keepBand lo hi l = true ↔ ∃ x ∈ l, lo ≤ x ∧ x ≤ hi := by
  simp [keepBand]

theorem mapOutcome_read {γ β : Type} (bands : List (γ × β)) (is : List Nat) (h : ∀ i ∈ is, i < bands.length) :
    mapOutcome (fun ib => (readAt bands ib).bind fun b => .ok b.2) is =
      .ok ((is.filterMap fun ib => bands[ib]?).map Prod.snd) := by
  induction is with
  | nil => rfl
  | cons i is ih =>
    have hi := h i (by simp)
    unfold mapOutcome
    rw [ih fun j hj => h j (by simp [hj])]
    simp only [readAt, List.getElem?_eq_getElem hi, Outcome.bind_ok, Outcome.bind_eq, List.filterMap_cons, List.map_cons]

/-- The result of `trimBands`. -/
theorem trimBands_val {α β : Type} [Field α] [LinearOrder α] (lo hi : α) (so : Bool) (bands : List (List α × β)) (n : α) :
    trimBands lo hi so bands n =
      match (List.range bands.length).find? (fun ib => keepBand lo hi ((bands[ib]?.map Prod.fst).getD [])) with
      | none => .ub
      | some f => .ok ((bands.filter fun b => keepBand lo hi b.1).map Prod.snd, n - (f : α) * (if so then 1 else 2)) := by
  have hdef : (fun ib : Nat => keepBand lo hi ((bands[ib]?.map Prod.fst).getD [])) =
      fun ib => (bands[ib]?.map fun b : List α × β => keepBand lo hi b.1).getD false := by
    funext ib
    cases bands[ib]? with
    | none => rfl
    | some b => rfl
  unfold trimBands
  rw [hdef]
  dsimp only
  rw [mapOutcome_read _ _ (fun i hi => List.mem_range.mp (List.mem_filter.mp hi).1),
    filter_range_bands (fun b : List α × β => keepBand lo hi b.1) _ (fun _ => rfl)]
  rw [← List.head?_filter]
  cases hl : (List.range bands.length).filter fun ib => (bands[ib]?.map fun b : List α × β => keepBand lo hi b.1).getD false with
  | nil => simp [readAt]
  | cons f l => simp [readAt]

/-- The electrons in the bands: `occ` is the occupation of a state as a function of its energy. -/
def bandFilling {α β : Type} [Field α] (occ : α → α) (spin : α) (bands : List (List α × β)) : α :=
  (bands.map fun b => spin * ((b.1.map occ).sum / (b.1.length : α))).sum

theorem constFilling {α : Type} [Field α] [LinearOrder α] [IsStrictOrderedRing α] (occ : α → α) (c : α) (l : List α)
    (hl : l ≠ []) (h : ∀ x ∈ l, occ x = c) : (l.map occ).sum / (l.length : α) = c := by
  rw [List.map_congr_left h, List.map_const', List.sum_replicate, nsmul_eq_mul]
  have : (l.length : α) ≠ 0 := by
    have := List.length_pos_iff.mpr hl
    exact_mod_cast this.ne'
  field_simp

/-- The number of electrons after the removal of the bands. -/
theorem trim_filling {α β : Type} [Field α] [LinearOrder α] [IsStrictOrderedRing α] (lo hi : α)
    (occ : α → α) (spin : α)
    (hlow : ∀ x, x < lo → occ x = 1) (hhigh : ∀ x, hi < x → occ x = 0) (bands : List (List α × β)) (K : Nat)
    (hlen : ∀ b ∈ bands, b.1.length = K) (hsort : bands.Pairwise fun b b' => ∀ (k : Nat) x y, b.1[k]? = some x → b'.1[k]? = some y → x ≤ y)
    (hjump : ∀ b ∈ bands, (∃ x ∈ b.1, lo ≤ x ∧ x ≤ hi) ∨ (∀ x ∈ b.1, x < lo) ∨ (∀ x ∈ b.1, hi < x)) (f : Nat)
    (hf : (List.range bands.length).find? (fun ib => keepBand lo hi ((bands[ib]?.map Prod.fst).getD [])) = some f) :
    bandFilling occ spin bands = f * spin + bandFilling occ spin (bands.filter fun b => keepBand lo hi b.1) := by
  obtain ⟨hk, as, bs, hab, hbef⟩ := List.find?_eq_some_iff_append.mp hf
  have hflt : f < bands.length := by
    have : f ∈ List.range bands.length := by rw [hab]; simp
    exact List.mem_range.mp this
  have has : as = List.range f := by
    have h1 := congrArg (fun l => l[as.length]?) hab
    simp only [List.getElem?_append_right (Nat.le_refl _), Nat.sub_self, List.getElem?_cons_zero] at h1
    have hal : as.length < bands.length := by
      have := congrArg List.length hab
      simp at this
      omega
    rw [List.getElem?_range hal, Option.some.injEq] at h1
    have h2 := congrArg (List.take as.length) hab
    rw [List.take_left', List.take_range, Nat.min_eq_left hal.le, h1] at h2
    · exact h2.symm
    · rfl
  obtain ⟨F, hF⟩ : ∃ F, F = bands[f] := ⟨_, rfl⟩
  rw [List.getElem?_eq_getElem hflt, Option.map_some, Option.getD_some, ← hF, keepBand_iff] at hk
  obtain ⟨x0, hx0, hx0l, hx0h⟩ := hk
  obtain ⟨k0, hk0, hk0e⟩ := List.getElem_of_mem hx0
  have hFmem : F ∈ bands := hF ▸ List.getElem_mem hflt
  have hK : k0 < K := (hlen F hFmem) ▸ hk0
  have hsplit : bands = bands.take f ++ F :: bands.drop (f + 1) := by
    rw [hF, List.getElem_cons_drop, List.take_append_drop]
  have hbelow : ∀ b ∈ bands.take f, keepBand lo hi b.1 = false ∧ ∀ x ∈ b.1, x < lo := by
    intro b hb
    obtain ⟨i, hi', hbe⟩ := List.getElem_of_mem hb
    rw [List.length_take] at hi'
    have hif : i < f := by omega
    have hib : i < bands.length := by omega
    have hbe' : bands[i] = b := by rw [← hbe, List.getElem_take]
    have hnk := hbef i (by rw [has]; exact List.mem_range.mpr hif)
    rw [List.getElem?_eq_getElem hib, Option.map_some, Option.getD_some, hbe'] at hnk
    have hnk' : keepBand lo hi b.1 = false := by simpa using hnk
    refine ⟨hnk', ?_⟩
    have hbm : b ∈ bands := List.mem_of_mem_take hb
    rcases hjump b hbm with h | h | h
    · rw [← keepBand_iff, hnk'] at h; cases h
    · exact h
    · exfalso
      have hkb : k0 < b.1.length := by rw [hlen b hbm]; exact hK
      have h1 := h _ (List.getElem_mem hkb)
      have h2 := List.pairwise_iff_getElem.mp hsort i f hib hflt hif k0 b.1[k0] x0
        (by rw [hbe']; exact List.getElem?_eq_getElem hkb) (by rw [← hF, ← hk0e]; exact List.getElem?_eq_getElem hk0)
      exact absurd (h1.trans_le h2) (not_lt.mpr hx0h)
  have habove : ∀ b ∈ bands.drop (f + 1), keepBand lo hi b.1 = false → ∀ x ∈ b.1, hi < x := by
    intro b hb hnk
    obtain ⟨i, hi', hbe⟩ := List.getElem_of_mem hb
    rw [List.length_drop] at hi'
    have hib : f + 1 + i < bands.length := by omega
    have hbe' : bands[f + 1 + i] = b := by rw [← hbe, List.getElem_drop]
    have hbm : b ∈ bands := List.mem_of_mem_drop hb
    rcases hjump b hbm with h | h | h
    · rw [← keepBand_iff, hnk] at h; cases h
    · exfalso
      have hkb : k0 < b.1.length := by rw [hlen b hbm]; exact hK
      have h1 := h _ (List.getElem_mem hkb)
      have h2 := List.pairwise_iff_getElem.mp hsort f (f + 1 + i) hflt hib (by omega) k0 x0 b.1[k0]
        (by rw [← hF, ← hk0e]; exact List.getElem?_eq_getElem hk0) (by rw [hbe']; exact List.getElem?_eq_getElem hkb)
      exact absurd (h2.trans_lt h1) (not_lt.mpr hx0l)
    · exact h
  have hne : ∀ b ∈ bands, b.1 ≠ [] := by
    intro b hb h
    have := hlen b hb
    rw [h] at this
    simp at this
    omega
  have sumFilter : ∀ l : List (List α × β), (∀ b ∈ l, b ∈ bands) → (∀ b ∈ l, keepBand lo hi b.1 = false → ∀ x ∈ b.1, hi < x) →
      bandFilling occ spin l = bandFilling occ spin (l.filter fun b => keepBand lo hi b.1) := by
    intro l
    induction l with
    | nil => intros; rfl
    | cons b l ih =>
      intro h1 h2
      have ih' := ih (fun b hb => h1 b (by simp [hb])) (fun b hb => h2 b (by simp [hb]))
      unfold bandFilling at ih' ⊢
      rw [List.map_cons, List.sum_cons, ih', List.filter_cons]
      split_ifs with hkb
      · rw [List.map_cons, List.sum_cons]
      · rw [constFilling occ 0 b.1 (hne b (h1 b (by simp)))
          (fun x hx => hhigh x (h2 b (by simp) (by simpa using hkb) x hx))]
        ring
  have sumBelow : ∀ l : List (List α × β), (∀ b ∈ l, b ∈ bands) → (∀ b ∈ l, ∀ x ∈ b.1, x < lo) →
      bandFilling occ spin l = l.length * spin := by
    intro l
    induction l with
    | nil => intros; simp [bandFilling]
    | cons b l ih =>
      intro h1 h2
      have ih' := ih (fun b hb => h1 b (by simp [hb])) (fun b hb => h2 b (by simp [hb]))
      unfold bandFilling at ih' ⊢
      rw [List.map_cons, List.sum_cons, ih', constFilling occ 1 b.1 (hne b (h1 b (by simp)))
        (fun x hx => hlow x (h2 b (by simp) x hx))]
      push_cast [List.length_cons]
      ring
  have happ : ∀ l l' : List (List α × β), bandFilling occ spin (l ++ l') = bandFilling occ spin l + bandFilling occ spin l' := by
    intro l l'
    simp [bandFilling]
  have hFk : keepBand lo hi F.1 = true := (keepBand_iff _ _ _).mpr ⟨x0, hx0, hx0l, hx0h⟩
  have hff : (bands.take f).filter (fun b => keepBand lo hi b.1) = [] := by
    rw [List.filter_eq_nil_iff]
    intro b hb
    rw [(hbelow b hb).1]
    simp
  have e1 := sumBelow (bands.take f) (fun b hb => List.mem_of_mem_take hb) (fun b hb => (hbelow b hb).2)
  have e2 := sumFilter (F :: bands.drop (f + 1)) (fun b hb => by rw [hsplit]; exact List.mem_append_right _ hb) (by
    intro b hb
    rcases List.mem_cons.mp hb with rfl | hb
    · intro h; rw [hFk] at h; cases h
    · exact habove b hb)
  have e3 : bandFilling occ spin (bands.filter fun b => keepBand lo hi b.1) =
      bandFilling occ spin ((F :: bands.drop (f + 1)).filter fun b => keepBand lo hi b.1) := by
    conv_lhs => rw [hsplit, List.filter_append, hff, List.nil_append]
  rw [e3, ← e2]
  conv_lhs => rw [hsplit, happ, e1, List.length_take, Nat.min_eq_left hflt.le]

end Verif.Model
