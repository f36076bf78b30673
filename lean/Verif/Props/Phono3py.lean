import Verif.Proofs.Phono3py2
import Verif.Props.Coupling3Ph

/-!
# C150: three-phonon couplings from third-order force constants of phono3py
-/
namespace Verif.Props
open Verif.Model Verif.Spec

theorem parse_p3 {A : Nat} (hA : 0 < A) (d : Mat3) (pos : Fin A → Vec3) (N : V3 Int) (order : List (V3 Int)) (ho : IsOrder N order)
    (hint : ((A * order.length : Nat) : Int) ≤ intMax) (frac : Fin A → Fin 3 → ℝ) (bohr ryd : ℝ) (f : DispFile)
    (h : f.Describes N d frac order bohr) (newline : Bool) (hn : newline = true ∨ f.post ≠ []) (fc : Fc3File) :
    parsePhono3py d pos bohr ryd newline f.lines fc = p3Make d pos N (order.map (latVec d)) fc (bohr ^ 3 / ryd) := by
  obtain ⟨v, lat, unit, hv, l0, l1, l2, hg, hu, hs⟩ := readDisp f N d frac order bohr h newline hn
  obtain ⟨⟨hx, hy, hz⟩, hlen⟩ := order_length ho
  have hL : 0 < order.length := by
    have : (0 : Int) < N.x * N.y * N.z := by positivity
    omega
  have hxy : 0 < N.x * N.y := by positivity
  have hle : N.x * N.y * N.z ≤ intMax := by
    rw [← hlen]
    refine le_trans ?_ hint
    push_cast
    nlinarith
  have hle2 : N.x * N.y ≤ intMax := by nlinarith
  have hmin : intMin < 0 := by decide
  unfold parsePhono3py
  simp only [Outcome.bind_eq, hg, hu, hs, Outcome.bind_ok]
  rw [if_neg (by omega), cmul_ok (by omega) hle2, Outcome.bind_ok, cmul_ok (by omega) hle, Outcome.bind_ok]
  have hplen : ((List.finRange A).flatMap fun b => order.map fun c k => (frac b k + asFun c k) / asFun N k : List (Fin 3 → ℝ)).length =
      A * order.length := by
    rw [List.length_flatMap]
    simp
  have hcd : cdiv (((List.finRange A).flatMap fun b => order.map fun c k => (frac b k + asFun c k) / asFun N k :
      List (Fin 3 → ℝ)).length : Nat) (N.x * N.y * N.z) = .ok A := by
    rw [hplen]
    unfold cdiv
    rw [← hlen, if_neg (by omega)]
    have : Int.tdiv ((A * order.length : Nat) : Int) (order.length : Int) = A := by
      push_cast
      exact Int.mul_tdiv_cancel _ (by omega)
    rw [this]
    unfold i32
    rw [if_pos]
    constructor
    · omega
    · refine le_trans ?_ hint
      push_cast
      nlinarith
  rw [hcd, Outcome.bind_ok, if_neg (by simp)]
  congr 1
  rw [hplen, Nat.mul_div_cancel_left _ hA]
  obtain ⟨A', rfl⟩ : ∃ A', A = A' + 1 := ⟨A - 1, by omega⟩
  rw [List.finRange_succ, List.flatMap_cons, List.map_append, List.take_append_of_le_length (by simp), List.take_of_length_le (by simp)]
  rw [List.map_map, List.map_map]
  have hNx : (N.x : ℝ) ≠ 0 := by exact_mod_cast hx.ne'
  have hNy : (N.y : ℝ) ≠ 0 := by exact_mod_cast hy.ne'
  have hNz : (N.z : ℝ) ≠ 0 := by exact_mod_cast hz.ne'
  obtain ⟨rest, hrest⟩ : ∃ rest, order = ⟨0, 0, 0⟩ :: rest := by
    have := ho.home
    cases hh : order with
    | nil => rw [hh] at hL; simp at hL
    | cons a r =>
      rw [hh] at this
      simp only [List.getElem?_cons_zero, Option.some.injEq] at this
      exact ⟨r, by rw [this]⟩
  apply List.map_congr_left
  intro c _
  funext i
  have h0 := hv 0 i
  have h1 := hv 1 i
  have h2 := hv 2 i
  have g0 : (List.map (fun (x : Fin 3 → ℝ) i => lat 0 i * unit * x 0 + lat 1 i * unit * x 1 + lat 2 i * unit * x 2) (List.map (fun c k =>
      (frac 0 k + (asFun c k : ℝ)) / asFun N k) order) ++ List.map (fun (x : Fin 3 → ℝ) i => lat 0 i * unit * x 0 + lat 1 i * unit * x 1 + lat 2 i * unit * x 2)
        (List.flatMap (fun b => List.map (fun c k => (frac b k + (asFun c k : ℝ)) / asFun N k) order) (List.map Fin.succ (List.finRange A')))).getD 0 (fun _ => 0) i =
      lat 0 i * unit * (frac 0 0 / N.x) + lat 1 i * unit * (frac 0 1 / N.y) + lat 2 i * unit * (frac 0 2 / N.z) := by
    rw [hrest]
    simp [asFun]
  simp only [Function.comp_apply] at g0 ⊢
  rw [g0]
  simp only [l0, l1, l2, h0, h1, h2, latVec, asFun, Matrix.cons_val_zero, Matrix.cons_val_one, Matrix.cons_val]
  field_simp
  ring

/-- **What the code computes**: the coupling with the weight of the third atom squared. -/
theorem C150_squared_weight {A : Nat} (hA : 0 < A) (d : Mat3) (hap : LatticeApart d) (pos : Fin A → Fin 3 → ℝ) (N : V3 Int)
    (order : List (V3 Int)) (ho : IsOrder N order) (hint : ((A * order.length : Nat) : Int) ≤ intMax)
    (hclear : ∀ b b', ClearDistances (fun k i => d i k) (fun i => pos b' i - pos b i) (asFun N))
    (frac : Fin A → Fin 3 → ℝ) (bohr ryd : ℝ) (f : DispFile) (hdisp : f.Describes N d frac order bohr)
    (newline : Bool) (hn : newline = true ∨ f.post ≠ [])
    (Phi : ForceConstants A) (hP : PeriodicFc N Phi) (fc : Fc3File) (hf : IsFc3File order Phi fc) :
    ∃ o, parsePhono3py d pos bohr ryd newline f.lines fc = .ok o ∧
    ∀ (batch : List CouplingInput) (q2 : Fin 3 → ℝ) (ev2 : Nat → Nat → ℂ) (nb2 : Nat) (res : List (Tensor3 × Tensor3)),
      getCouplingsSquared (o.cacheD3 q2) batch q2 ev2 nb2 = .ok res →
      res.length = batch.length ∧ ∀ (k : Nat) (x : CouplingInput) (t : Tensor3 × Tensor3),
      batch[k]? = some x → res[k]? = some t →
      IsWeightedCoupling t.1 x.nb1 nb2 x.nb3Plus N d (pairWeight d pos N) (fun n b b' => pairWeight d pos N n b b' ^ 2) (bohr ^ 3 / ryd) Phi
        1 q2 (fun i => x.q1 i + q2 i) x.ev1 ev2 x.ev3Plus ∧
      IsWeightedCoupling t.2 x.nb1 nb2 x.nb3Mins N d (pairWeight d pos N) (fun n b b' => pairWeight d pos N n b b' ^ 2) (bohr ^ 3 / ryd) Phi
        (-1) q2 (fun i => x.q1 i - q2 i) x.ev1 (fun a b => (starRingEnd ℂ) (ev2 a b)) x.ev3Mins := by
  have hw : (fun (n : V3 Int) b b' => p3Weight d pos N (latVec d n) b b') = pairWeight d pos N := by
    funext n b b'
    exact p3Weight_eq d pos N n b b' (hclear b b')
  have hw2 : (fun (n : V3 Int) b b' => p3Weight d pos N (latVec d n) b b' * p3Weight d pos N (latVec d n) b b') =
      fun n b b' => pairWeight d pos N n b b' ^ 2 := by
    funext n b b'
    rw [← hw, sq]
  have hm : ∃ o, p3Make d pos N (order.map (latVec d)) fc (bohr ^ 3 / ryd) = .ok o ∧
      Coupling3Ph.make A (p3Vectors d pos N).length (p3Vectors d pos N).length (p3Tensor (allEntries d pos N Phi (bohr ^ 3 / ryd)))
        (fun i r => (p3Vectors d pos N).getD r (fun _ => 0) i) (fun i r => (p3Vectors d pos N).getD r (fun _ => 0) i)
        (p3Weights d pos N) (p3Weights d pos N) = .ok o := by
    unfold p3Make
    rw [p3Entries_val d hap pos N (order_length ho).1 order ho Phi fc hf hP hint, Outcome.bind_eq, Outcome.bind_ok]
    unfold Coupling3Ph.make
    rw [if_neg (by omega)]
    exact ⟨_, rfl, rfl⟩
  obtain ⟨o, h1, h2⟩ := hm
  refine ⟨o, ?_, ?_⟩
  · rw [parse_p3 hA d pos N order ho hint frac bohr ryd f hdisp newline hn fc, h1]
  intro batch q2 ev2 nb2 res hres
  obtain ⟨hl, hr⟩ := C62_squared_weight A _ _ _ _ _ _ _ o h2 batch q2 ev2 nb2 res hres
  refine ⟨hl, fun k x t hx ht => ?_⟩
  obtain ⟨⟨a1, a2, a3, a4⟩, ⟨b1, b2, b3, b4⟩⟩ := hr k x t hx ht
  refine ⟨⟨a1, a2, a3, fun n1 m1 n2 m2 n3 m3 => ?_⟩, ⟨b1, b2, b3, fun n1 m1 n2 m2 n3 m3 => ?_⟩⟩
  · rw [a4 n1 m1 n2 m2 n3 m3, p3Coupling d hap pos N, hw2, hw]
  · rw [b4 n1 m1 n2 m2 n3 m3, p3Coupling d hap pos N, hw2, hw]

/-- **C150** (missing: third weights other than 0 and 1, see `C150_violated_weight`).  The couplings are the squared moduli of the sum
over atoms, directions and cells of the force constants in the file, with each weight applied once. -/
theorem C150_couplings_partial {A : Nat} (hA : 0 < A) (d : Mat3) (hap : LatticeApart d) (pos : Fin A → Fin 3 → ℝ) (N : V3 Int)
    (order : List (V3 Int)) (ho : IsOrder N order) (hint : ((A * order.length : Nat) : Int) ≤ intMax)
    (hclear : ∀ b b', ClearDistances (fun k i => d i k) (fun i => pos b' i - pos b i) (asFun N))
    (hw : ∀ n b b', pairWeight d pos N n b b' = 0 ∨ pairWeight d pos N n b b' = 1)
    (frac : Fin A → Fin 3 → ℝ) (bohr ryd : ℝ) (f : DispFile) (hdisp : f.Describes N d frac order bohr)
    (newline : Bool) (hn : newline = true ∨ f.post ≠ [])
    (Phi : ForceConstants A) (hP : PeriodicFc N Phi) (fc : Fc3File) (hf : IsFc3File order Phi fc)
    (batch : List CouplingInput) (hne : batch ≠ []) (q2 : Fin 3 → ℝ) (ev2 : Nat → Nat → ℂ) (nb2 : Nat) :
    ∃ o res, parsePhono3py d pos bohr ryd newline f.lines fc = .ok o ∧
      getCouplingsSquared (o.cacheD3 q2) batch q2 ev2 nb2 = .ok res ∧
      res.length = batch.length ∧ ∀ (k : Nat) (x : CouplingInput) (t : Tensor3 × Tensor3),
      batch[k]? = some x → res[k]? = some t →
      IsWeightedCoupling t.1 x.nb1 nb2 x.nb3Plus N d (pairWeight d pos N) (pairWeight d pos N) (bohr ^ 3 / ryd) Phi
        1 q2 (fun i => x.q1 i + q2 i) x.ev1 ev2 x.ev3Plus ∧
      IsWeightedCoupling t.2 x.nb1 nb2 x.nb3Mins N d (pairWeight d pos N) (pairWeight d pos N) (bohr ^ 3 / ryd) Phi
        (-1) q2 (fun i => x.q1 i - q2 i) x.ev1 (fun a b => (starRingEnd ℂ) (ev2 a b)) x.ev3Mins := by
  obtain ⟨o, h1, h2⟩ := C150_squared_weight hA d hap pos N order ho hint hclear frac bohr ryd f hdisp newline hn Phi hP fc hf
  have hg : ∃ res, getCouplingsSquared (o.cacheD3 q2) batch q2 ev2 nb2 = .ok res := by
    unfold getCouplingsSquared
    rw [if_neg hne]
    exact ⟨_, rfl⟩
  obtain ⟨res, hr⟩ := hg
  have e : (fun n b b' => pairWeight d pos N n b b' ^ 2) = pairWeight d pos N := by
    funext n b b'
    rcases hw n b b' with h | h <;> rw [h] <;> norm_num
  have := h2 batch q2 ev2 nb2 res hr
  rw [e] at this
  exact ⟨o, res, h1, hr, this⟩

/-! ### Cases -/

/-- A file of displacements for any crystal and supercell. -/
noncomputable def sampleDisp {A : Nat} (N : V3 Int) (d : Mat3) (frac : Fin A → Fin 3 → ℝ) (order : List (V3 Int)) (bohr : ℝ) : DispFile where
  pre := [⟨fun s => decide (s = "phono3py:"), [.word]⟩]
  sm := ⟨fun s => decide (s = "supercell_matrix:"), [.word]⟩
  g := fun i => ⟨fun _ => false, [.word, .word, .int (if i = 0 then N.x else 0), .int (if i = 1 then N.y else 0), .int (if i = 2 then N.z else 0)]⟩
  mid := []
  sup := ⟨fun s => decide (s = "supercell:"), [.word]⟩
  lat := ⟨fun s => decide (s = "lattice:"), [.word]⟩
  a := fun k => ⟨fun _ => false, [.word, .word, .num (asFun N k * d 0 k * bohr), .num (asFun N k * d 1 k * bohr), .num (asFun N k * d 2 k * bohr)]⟩
  body := ((List.finRange A).flatMap fun b => order.map fun c k => (frac b k + asFun c k) / asFun N k).map fun p =>
    ⟨fun s => decide (s = "coordinates:"), [.word, .word, .num (p 0), .num (p 1), .num (p 2)]⟩
  post := []

theorem sample_describes {A : Nat} (N : V3 Int) (d : Mat3) (frac : Fin A → Fin 3 → ℝ) (order : List (V3 Int)) (bohr : ℝ) (hb : bohr ≠ 0) :
    (sampleDisp N d frac order bohr).Describes N d frac order bohr where
  before := by simp [sampleDisp]
  matrix := by simp [sampleDisp]
  rows := fun i => ⟨_, _, _, rfl⟩
  quiet := by simp [sampleDisp]
  sup := by simp [sampleDisp]
  lat := by simp [sampleDisp]
  vectors := by
    refine ⟨fun k i => asFun N k * d i k * bohr, ⟨1 / bohr, Or.inr ⟨?_, rfl⟩, fun k i => by field_simp⟩, fun k => ⟨⟨_, _, _, rfl⟩, ?_⟩⟩
    · intro x hx
      simp only [DispFile.lines, sampleDisp, List.append_nil, List.mem_append, List.mem_cons, List.not_mem_nil, or_false, List.mem_map] at hx
      rcases hx with (rfl | rfl | rfl | rfl | rfl) | rfl | rfl | rfl | rfl | rfl | ⟨p, _, rfl⟩ <;> simp
    · simp [sampleDisp]
  atoms := by
    unfold sampleDisp
    simp only
    generalize ((List.finRange A).flatMap fun b => order.map fun c k => (frac b k + (asFun c k : ℝ)) / asFun N k) = ps
    induction ps with
    | nil => exact .nil
    | cons p ps ih => exact .coord _ _ p ps .word .word [] rfl (by simp) (by simp) (by simp) ih
  stop := Or.inl rfl

/-- The cubic lattice with an edge of one bohr. -/
def unitCubic : Mat3 := fun i k => if i = k then 1 else 0

theorem cubic_dist2 (n : Fin 3 → ℤ) : dist2 (fun k i => unitCubic i k) 0 n = ((n 0 ^ 2 + n 1 ^ 2 + n 2 ^ 2 : ℤ) : ℝ) := by
  simp [dist2, image, unitCubic, Fin.sum_univ_three]

theorem cubic_apart : LatticeApart unitCubic := by
  intro n n' hne
  have h1 : (1 : ℝ) ≤ norm3 (fun i => latVec unitCubic n i - latVec unitCubic n' i) := by
    have key : (1 : ℤ) ≤ (n.x - n'.x) ^ 2 + (n.y - n'.y) ^ 2 + (n.z - n'.z) ^ 2 := by
      by_contra hlt
      have hx : n.x - n'.x = 0 := by nlinarith [sq_nonneg (n.x - n'.x), sq_nonneg (n.y - n'.y), sq_nonneg (n.z - n'.z)]
      have hy : n.y - n'.y = 0 := by nlinarith [sq_nonneg (n.x - n'.x), sq_nonneg (n.y - n'.y), sq_nonneg (n.z - n'.z)]
      have hz : n.z - n'.z = 0 := by nlinarith [sq_nonneg (n.x - n'.x), sq_nonneg (n.y - n'.y), sq_nonneg (n.z - n'.z)]
      apply hne
      cases n; cases n'
      simp only [V3.mk.injEq] at *
      omega
    have key' : (1 : ℝ) ≤ ((n.x - n'.x) ^ 2 + (n.y - n'.y) ^ 2 + (n.z - n'.z) ^ 2 : ℤ) := by exact_mod_cast key
    push_cast at key'
    unfold norm3
    rw [Real.one_le_sqrt]
    simp [latVec, unitCubic]
    linarith
  linarith

theorem cubic_clear (N : V3 Int) (hN : 0 < N.x ∧ 0 < N.y ∧ 0 < N.z) (t : Fin 3 → ℝ) (ht : t = 0) :
    ClearDistances (fun k i => unitCubic i k) t (asFun N) where
  tie := by
    subst ht
    intro n g _
    rw [cubic_dist2, cubic_dist2]
    rw [← Int.cast_sub, ← Int.cast_abs]
    by_cases h : (n 0 - asFun N 0 * g 0) ^ 2 + (n 1 - asFun N 1 * g 1) ^ 2 + (n 2 - asFun N 2 * g 2) ^ 2 = n 0 ^ 2 + n 1 ^ 2 + n 2 ^ 2
    · exact Or.inl (by exact_mod_cast h)
    · right
      have : (1 : ℤ) ≤ |n 0 ^ 2 + n 1 ^ 2 + n 2 ^ 2 - ((n 0 - asFun N 0 * g 0) ^ 2 + (n 1 - asFun N 1 * g 1) ^ 2 + (n 2 - asFun N 2 * g 2) ^ 2)| :=
        Int.one_le_abs (by omega)
      have h' : (1 : ℝ) ≤ (|n 0 ^ 2 + n 1 ^ 2 + n 2 ^ 2 - ((n 0 - asFun N 0 * g 0) ^ 2 + (n 1 - asFun N 1 * g 1) ^ 2 + (n 2 - asFun N 2 * g 2) ^ 2)| : ℤ) := by
        exact_mod_cast this
      refine lt_of_lt_of_le (by norm_num) h'
  apart := by
    intro g hg
    rw [cubic_dist2]
    have : (1 : ℤ) ≤ (asFun N 0 * g 0) ^ 2 + (asFun N 1 * g 1) ^ 2 + (asFun N 2 * g 2) ^ 2 := by
      by_contra hlt
      have hx : asFun N 0 * g 0 = 0 := by nlinarith [sq_nonneg (asFun N 0 * g 0), sq_nonneg (asFun N 1 * g 1), sq_nonneg (asFun N 2 * g 2)]
      have hy : asFun N 1 * g 1 = 0 := by nlinarith [sq_nonneg (asFun N 0 * g 0), sq_nonneg (asFun N 1 * g 1), sq_nonneg (asFun N 2 * g 2)]
      have hz : asFun N 2 * g 2 = 0 := by nlinarith [sq_nonneg (asFun N 0 * g 0), sq_nonneg (asFun N 1 * g 1), sq_nonneg (asFun N 2 * g 2)]
      apply hg
      funext k
      fin_cases k
      · exact (mul_eq_zero.mp hx).resolve_left (show N.x ≠ 0 by omega)
      · exact (mul_eq_zero.mp hy).resolve_left (show N.y ≠ 0 by omega)
      · exact (mul_eq_zero.mp hz).resolve_left (show N.z ≠ 0 by omega)
    have h' : (1 : ℝ) ≤ ((asFun N 0 * g 0) ^ 2 + (asFun N 1 * g 1) ^ 2 + (asFun N 2 * g 2) ^ 2 : ℤ) := by exact_mod_cast this
    refine lt_of_lt_of_le (by norm_num) h'

theorem fold_two (x g : ℤ) (hx : x = 0 ∨ x = 1 ∨ x = -1) : 0 ≤ g * (g - x) := by
  rcases hx with rfl | rfl | rfl
  · nlinarith [sq_nonneg g]
  · rcases le_or_gt g 0 with h | h
    · nlinarith
    · nlinarith
  · rcases lt_or_ge g 0 with h | h
    · nlinarith
    · nlinarith

/-- The weights of one atom in a supercell of two cells along the first direction. -/
theorem weights_two (n : V3 Int) : pairWeight unitCubic (fun (_ : Fin 1) _ => 0) ⟨2, 1, 1⟩ n 0 0 =
    if n.y = 0 ∧ n.z = 0 then (if n.x = 0 then 1 else if n.x = 1 ∨ n.x = -1 then 1 / 2 else 0) else 0 := by
  classical
  have hN : asFun (⟨2, 1, 1⟩ : V3 Int) = ![2, 1, 1] := rfl
  have ht : (fun _ : Fin 3 => (0 : ℝ) - 0) = 0 := by funext; simp
  unfold pairWeight imageWeight
  rw [ht, hN]
  simp only [cubic_dist2]
  have nearer (g : Fin 3 → ℤ) (hg : ∀ k, |g k| ≤ 2) (h : (n.x - 2 * g 0) ^ 2 + (n.y - g 1) ^ 2 + (n.z - g 2) ^ 2 < n.x ^ 2 + n.y ^ 2 + n.z ^ 2) :
      ∃ g : Fin 3 → ℤ, (∀ k, |g k| ≤ 2) ∧ (((asFun n 0 - ![2, 1, 1] 0 * g 0) ^ 2 + (asFun n 1 - ![2, 1, 1] 1 * g 1) ^ 2 +
        (asFun n 2 - ![2, 1, 1] 2 * g 2) ^ 2 : ℤ) : ℝ) < ((asFun n 0 ^ 2 + asFun n 1 ^ 2 + asFun n 2 ^ 2 : ℤ) : ℝ) := by
    refine ⟨g, hg, ?_⟩
    simp only [asFun, Matrix.cons_val_zero, Matrix.cons_val_one, Matrix.cons_val, one_mul]
    exact_mod_cast h
  have unit3 (a b c : ℤ) (ha : |a| ≤ 2) (hb : |b| ≤ 2) (hc : |c| ≤ 2) : ∀ k : Fin 3, |(![a, b, c] : Fin 3 → ℤ) k| ≤ 2 := by
    intro k; fin_cases k
    · exact ha
    · exact hb
    · exact hc
  by_cases hyz : n.y = 0 ∧ n.z = 0
  · rw [if_pos hyz]
    obtain ⟨hy, hz⟩ := hyz
    by_cases hx : n.x = 0 ∨ n.x = 1 ∨ n.x = -1
    · rw [if_neg]
      · have hcard : (equalCopies (fun k i => unitCubic i k) 0 ![2, 1, 1] (asFun n)).card =
            if n.x = 0 then 1 else 2 := by
          have hset : equalCopies (fun k i => unitCubic i k) 0 ![2, 1, 1] (asFun n) = {0, ![n.x, 0, 0]} := by
            ext g
            unfold equalCopies
            rw [Finset.mem_filter, Fintype.mem_piFinset]
            simp only [cubic_dist2, asFun, Matrix.cons_val_zero, Matrix.cons_val_one, Matrix.cons_val, one_mul, hy, hz, Finset.mem_insert,
              Finset.mem_singleton, Finset.mem_Icc]
            constructor
            · rintro ⟨hb, he⟩
              have he' : (n.x - 2 * g 0) ^ 2 + (0 - g 1) ^ 2 + (0 - g 2) ^ 2 = n.x ^ 2 + 0 ^ 2 + 0 ^ 2 := by exact_mod_cast he
              have hf := fold_two n.x (g 0) hx
              have h1 : g 1 = 0 := by nlinarith [sq_nonneg (g 1), sq_nonneg (g 2)]
              have h2 : g 2 = 0 := by nlinarith [sq_nonneg (g 1), sq_nonneg (g 2)]
              have h0 : g 0 * (g 0 - n.x) = 0 := by
                rw [h1, h2] at he'
                nlinarith
              rcases mul_eq_zero.mp h0 with h0 | h0
              · left
                funext k
                fin_cases k
                · exact h0
                · exact h1
                · exact h2
              · right
                funext k
                fin_cases k
                · show g 0 = n.x
                  omega
                · exact h1
                · exact h2
            · rintro (rfl | rfl)
              · refine ⟨fun k => by simp, by simp⟩
              · refine ⟨fun k => ?_, ?_⟩
                · fin_cases k
                  · simp; omega
                  · simp
                  · simp
                · simp; ring
          rw [hset]
          split_ifs with h0
          · rw [h0, Finset.card_eq_one]
            refine ⟨0, ?_⟩
            have : (![0, 0, 0] : Fin 3 → ℤ) = 0 := by funext k; fin_cases k <;> rfl
            rw [this, Finset.pair_eq_singleton]
          · rw [Finset.card_pair]
            intro h
            exact h0 (congrFun h 0).symm
        rw [hcard]
        split_ifs with h0 h1
        · simp
        · simp
        · exact absurd hx (by tauto)
      · rintro ⟨g, -, hlt⟩
        simp only [asFun, Matrix.cons_val_zero, Matrix.cons_val_one, Matrix.cons_val, one_mul, hy, hz] at hlt
        have hlt' : (n.x - 2 * g 0) ^ 2 + (0 - g 1) ^ 2 + (0 - g 2) ^ 2 < n.x ^ 2 + 0 ^ 2 + 0 ^ 2 := by exact_mod_cast hlt
        have hf := fold_two n.x (g 0) hx
        nlinarith [sq_nonneg (g 1), sq_nonneg (g 2)]
    · have e0 : ¬ n.x = 0 := fun h => hx (Or.inl h)
      have e1 : ¬ (n.x = 1 ∨ n.x = -1) := fun h => hx (Or.inr h)
      rw [if_neg e0, if_neg e1, if_pos]
      rcases lt_or_ge n.x 0 with h | h
      · refine nearer ![-1, 0, 0] (unit3 _ _ _ (by decide) (by decide) (by decide)) ?_
        simp only [Matrix.cons_val_zero, Matrix.cons_val_one, Matrix.cons_val]
        have : n.x ≤ -2 := by omega
        nlinarith
      · refine nearer ![1, 0, 0] (unit3 _ _ _ (by decide) (by decide) (by decide)) ?_
        simp only [Matrix.cons_val_zero, Matrix.cons_val_one, Matrix.cons_val]
        have : 2 ≤ n.x := by omega
        nlinarith
  · rw [if_neg hyz, if_pos]
    by_cases hy : n.y = 0
    · have hz : n.z ≠ 0 := fun h => hyz ⟨hy, h⟩
      rcases lt_or_ge n.z 0 with h | h
      · refine nearer ![0, 0, -1] (unit3 _ _ _ (by decide) (by decide) (by decide)) ?_
        simp only [Matrix.cons_val_zero, Matrix.cons_val_one, Matrix.cons_val]
        nlinarith
      · refine nearer ![0, 0, 1] (unit3 _ _ _ (by decide) (by decide) (by decide)) ?_
        simp only [Matrix.cons_val_zero, Matrix.cons_val_one, Matrix.cons_val]
        have : 1 ≤ n.z := by omega
        nlinarith
    · rcases lt_or_ge n.y 0 with h | h
      · refine nearer ![0, -1, 0] (unit3 _ _ _ (by decide) (by decide) (by decide)) ?_
        simp only [Matrix.cons_val_zero, Matrix.cons_val_one, Matrix.cons_val]
        nlinarith
      · refine nearer ![0, 1, 0] (unit3 _ _ _ (by decide) (by decide) (by decide)) ?_
        simp only [Matrix.cons_val_zero, Matrix.cons_val_one, Matrix.cons_val]
        have : 1 ≤ n.y := by omega
        nlinarith

theorem fold_three (x g : ℤ) (hx : x = 0 ∨ x = 1 ∨ x = -1) (hg : g ≠ 0) : 0 < g * (3 * g - 2 * x) := by
  rcases hx with rfl | rfl | rfl <;> rcases lt_or_gt_of_ne hg with h | h <;> nlinarith

/-- The weights of one atom in a supercell of three cells along the first direction. -/
theorem weights_three (n : V3 Int) : pairWeight unitCubic (fun (_ : Fin 1) _ => 0) ⟨3, 1, 1⟩ n 0 0 =
    if n.y = 0 ∧ n.z = 0 ∧ (n.x = 0 ∨ n.x = 1 ∨ n.x = -1) then 1 else 0 := by
  classical
  have hN : asFun (⟨3, 1, 1⟩ : V3 Int) = ![3, 1, 1] := rfl
  have ht : (fun _ : Fin 3 => (0 : ℝ) - 0) = 0 := by funext; simp
  unfold pairWeight imageWeight
  rw [ht, hN]
  simp only [cubic_dist2]
  have nearer (a b c : ℤ) (ha : |a| ≤ 2) (hb : |b| ≤ 2) (hc : |c| ≤ 2)
      (h : (n.x - 3 * a) ^ 2 + (n.y - b) ^ 2 + (n.z - c) ^ 2 < n.x ^ 2 + n.y ^ 2 + n.z ^ 2) :
      ∃ g : Fin 3 → ℤ, (∀ k, |g k| ≤ 2) ∧ (((asFun n 0 - ![3, 1, 1] 0 * g 0) ^ 2 + (asFun n 1 - ![3, 1, 1] 1 * g 1) ^ 2 +
        (asFun n 2 - ![3, 1, 1] 2 * g 2) ^ 2 : ℤ) : ℝ) < ((asFun n 0 ^ 2 + asFun n 1 ^ 2 + asFun n 2 ^ 2 : ℤ) : ℝ) := by
    refine ⟨![a, b, c], fun k => by fin_cases k <;> assumption, ?_⟩
    simp only [asFun, Matrix.cons_val_zero, Matrix.cons_val_one, Matrix.cons_val, one_mul]
    exact_mod_cast h
  split_ifs with h1 h2
  · obtain ⟨g, -, hlt⟩ := h1
    obtain ⟨hy, hz, hx⟩ := h2
    simp only [asFun, Matrix.cons_val_zero, Matrix.cons_val_one, Matrix.cons_val, one_mul, hy, hz] at hlt
    have hlt' : (n.x - 3 * g 0) ^ 2 + (0 - g 1) ^ 2 + (0 - g 2) ^ 2 < n.x ^ 2 + 0 ^ 2 + 0 ^ 2 := by exact_mod_cast hlt
    by_cases h0 : g 0 = 0
    · rw [h0] at hlt'
      nlinarith [sq_nonneg (g 1), sq_nonneg (g 2)]
    · have := fold_three n.x (g 0) hx h0
      nlinarith [sq_nonneg (g 1), sq_nonneg (g 2)]
  · rfl
  · rename_i h2
    obtain ⟨hy, hz, hx⟩ := h2
    have hset : equalCopies (fun k i => unitCubic i k) 0 ![3, 1, 1] (asFun n) = {0} := by
      ext g
      unfold equalCopies
      rw [Finset.mem_filter, Fintype.mem_piFinset]
      simp only [cubic_dist2, asFun, Matrix.cons_val_zero, Matrix.cons_val_one, Matrix.cons_val, one_mul, hy, hz,
        Finset.mem_singleton, Finset.mem_Icc]
      constructor
      · rintro ⟨hb, he⟩
        have he' : (n.x - 3 * g 0) ^ 2 + (0 - g 1) ^ 2 + (0 - g 2) ^ 2 = n.x ^ 2 + 0 ^ 2 + 0 ^ 2 := by exact_mod_cast he
        have h0 : g 0 = 0 := by
          by_contra h0
          have := fold_three n.x (g 0) hx h0
          nlinarith [sq_nonneg (g 1), sq_nonneg (g 2)]
        rw [h0] at he'
        have h1 : g 1 = 0 := by nlinarith [sq_nonneg (g 1), sq_nonneg (g 2)]
        have h2 : g 2 = 0 := by nlinarith [sq_nonneg (g 1), sq_nonneg (g 2)]
        funext k
        fin_cases k
        · exact h0
        · exact h1
        · exact h2
      · rintro rfl
        exact ⟨fun k => by simp, by simp⟩
    rw [hset]
    simp
  · rename_i h2
    exfalso
    apply h1
    by_cases hy : n.y = 0
    · by_cases hz : n.z = 0
      · have hx : ¬ (n.x = 0 ∨ n.x = 1 ∨ n.x = -1) := fun h => h2 ⟨hy, hz, h⟩
        rcases lt_or_ge n.x 0 with h | h
        · refine nearer (-1) 0 0 (by decide) (by decide) (by decide) ?_
          have : n.x ≤ -2 := by omega
          nlinarith
        · refine nearer 1 0 0 (by decide) (by decide) (by decide) ?_
          have : 2 ≤ n.x := by omega
          nlinarith
      · rcases lt_or_ge n.z 0 with h | h
        · exact nearer 0 0 (-1) (by decide) (by decide) (by decide) (by nlinarith)
        · refine nearer 0 0 1 (by decide) (by decide) (by decide) ?_
          have : 1 ≤ n.z := by omega
          nlinarith
    · rcases lt_or_ge n.y 0 with h | h
      · exact nearer 0 (-1) 0 (by decide) (by decide) (by decide) (by nlinarith)
      · refine nearer 0 1 0 (by decide) (by decide) (by decide) ?_
        have : 1 ≤ n.y := by omega
        nlinarith

/-- The force constant of the first direction between an atom and two images, the second one in an odd cell. -/
def sampleFc : ForceConstants 1 := fun _ _ _ _ m i j k => if m.x % 2 = 1 ∧ i = 0 ∧ j = 0 ∧ k = 0 then 1 else 0

/-- Its file for two cells. -/
def sampleFile : Fc3File := ⟨2, 2, 2, fun _ _ s3 i j k => if s3 = 1 ∧ i = 0 ∧ j = 0 ∧ k = 0 then 1 else 0, [0]⟩

theorem sample_order : IsOrder ⟨2, 1, 1⟩ [⟨0, 0, 0⟩, ⟨1, 0, 0⟩] where
  nodup := by decide
  home := rfl
  mem := by
    rintro ⟨x, y, z⟩
    simp only [List.mem_cons, V3.mk.injEq, List.not_mem_nil, or_false]
    omega

theorem sample_periodic : PeriodicFc ⟨2, 1, 1⟩ sampleFc := by
  intro b1 b2 b3 n n' m m' _ _ _ hx _ _
  have : m.x % 2 = m'.x % 2 := by
    simp only at hx
    omega
  funext i j k
  unfold sampleFc
  rw [this]

theorem sample_file : IsFc3File [⟨0, 0, 0⟩, ⟨1, 0, 0⟩] sampleFc sampleFile where
  map := rfl
  size0 := rfl
  size1 := rfl
  size2 := rfl
  val := by
    intro b1 b2 b3 s2 s3 c2 c3 _ h3
    have hb : b3 = 0 := Subsingleton.elim _ _
    funext i j k
    simp only [sampleFile, sampleFc, hb]
    match s3, h3 with
    | 0, h3 =>
      simp only [List.getElem?_cons_zero, Option.some.injEq] at h3
      subst h3
      simp
    | 1, h3 =>
      simp only [List.getElem?_cons_succ, List.getElem?_cons_zero, Option.some.injEq] at h3
      subst h3
      simp

/-- The hypotheses of `C150_couplings_partial` are met by one atom in three cells. -/
example : ∃ (order : List (V3 Int)) (Phi : ForceConstants 1) (fc : Fc3File) (f : DispFile), LatticeApart unitCubic ∧ IsOrder ⟨3, 1, 1⟩ order ∧
    ((1 * order.length : Nat) : Int) ≤ intMax ∧
    (∀ b b' : Fin 1, ClearDistances (fun k i => unitCubic i k) (fun i => (fun (_ : Fin 1) (_ : Fin 3) => (0 : ℝ)) b' i - (fun (_ : Fin 1) (_ : Fin 3) => (0 : ℝ)) b i) (asFun ⟨3, 1, 1⟩)) ∧
    (∀ n b b', pairWeight unitCubic (fun (_ : Fin 1) _ => 0) ⟨3, 1, 1⟩ n b b' = 0 ∨ pairWeight unitCubic (fun (_ : Fin 1) _ => 0) ⟨3, 1, 1⟩ n b b' = 1) ∧
    f.Describes ⟨3, 1, 1⟩ unitCubic (fun (_ : Fin 1) _ => 0) order 1 ∧ PeriodicFc ⟨3, 1, 1⟩ Phi ∧ IsFc3File order Phi fc ∧
    Phi 0 0 ⟨0, 0, 0⟩ 0 ⟨0, 0, 0⟩ 0 0 0 = 1 := by
  refine ⟨[⟨0, 0, 0⟩, ⟨1, 0, 0⟩, ⟨2, 0, 0⟩], fun _ _ _ _ _ _ _ _ => 1, ⟨3, 3, 3, fun _ _ _ _ _ _ => 1, [0]⟩, _, cubic_apart, ⟨by decide, rfl, ?_⟩, by decide, ?_, ?_,
    sample_describes _ _ _ _ _ one_ne_zero, ?_, ⟨rfl, rfl, rfl, rfl, ?_⟩, rfl⟩
  · rintro ⟨x, y, z⟩
    simp only [List.mem_cons, V3.mk.injEq, List.not_mem_nil, or_false]
    omega
  · exact fun b b' => cubic_clear _ (by decide) _ (by funext i; simp)
  · intro n b b'
    rw [Subsingleton.elim b 0, Subsingleton.elim b' 0, weights_three]
    split_ifs <;> simp
  · intro b1 b2 b3 n n' m m' _ _ _ _ _ _
    rfl
  · intros; rfl

theorem box_sum (f : V3 Int → ℂ) (h : ∀ n : V3 Int, ¬ (n.y = 0 ∧ n.z = 0 ∧ (n.x = 0 ∨ n.x = 1 ∨ n.x = -1)) → f n = 0) :
    ∑ n ∈ cellBox ⟨2, 1, 1⟩, f ⟨n.1, n.2.1, n.2.2⟩ = f ⟨-1, 0, 0⟩ + f ⟨0, 0, 0⟩ + f ⟨1, 0, 0⟩ := by
  have hs : ({(-1, 0, 0), (0, 0, 0), (1, 0, 0)} : Finset (ℤ × ℤ × ℤ)) ⊆ cellBox ⟨2, 1, 1⟩ := by decide
  rw [← Finset.sum_subset hs]
  · rw [Finset.sum_insert (by decide), Finset.sum_insert (by decide), Finset.sum_singleton]
    ring
  · rintro ⟨x, y, z⟩ _ hn
    apply h
    simp only [Finset.mem_insert, Finset.mem_singleton, Prod.mk.injEq] at hn
    simp only
    omega

/-- One mode at the origin that moves the atom along the first direction. -/
noncomputable def sampleInput : CouplingInput := ⟨fun _ => 0, fun a _ => if a = 0 then 1 else 0, fun a _ => if a = 0 then 1 else 0,
    fun a _ => if a = 0 then 1 else 0, 1, 1, 1⟩

/-- **C150 is violated** by supercells with images on the border of the Wigner-Seitz cell, which is every supercell with an even
number of cells: the weight of the third atom is applied twice.  One atom, two cells of a cubic lattice: the coupling is 1 instead
of 4. -/
theorem C150_violated_weight : ∃ (o : Coupling3Ph) (t : Tensor3 × Tensor3),
    parsePhono3py unitCubic (fun (_ : Fin 1) _ => 0) 1 1 true (sampleDisp ⟨2, 1, 1⟩ unitCubic (fun (_ : Fin 1) _ => 0) [⟨0, 0, 0⟩, ⟨1, 0, 0⟩] 1).lines
      sampleFile = .ok o ∧
    getCouplingsSquared (o.cacheD3 fun _ => 0) [sampleInput] (fun _ => 0) (fun a _ => if a = 0 then 1 else 0) 1 = .ok [t] ∧
    t.1.val 0 0 0 = 1 ∧
    Complex.normSq (weightedCoupling ⟨2, 1, 1⟩ (latVec unitCubic) (pairWeight unitCubic (fun (_ : Fin 1) _ => 0) ⟨2, 1, 1⟩)
      (pairWeight unitCubic (fun (_ : Fin 1) _ => 0) ⟨2, 1, 1⟩) (1 ^ 3 / 1) sampleFc 1 (fun _ => 0) (fun i => sampleInput.q1 i + 0) (fun a => sampleInput.ev1 a 0)
      (fun a => if a = 0 then 1 else 0) (fun a => sampleInput.ev3Plus a 0)) = 4 := by
  obtain ⟨o, h1, h2⟩ := C150_squared_weight (by decide) unitCubic cubic_apart (fun (_ : Fin 1) _ => 0) ⟨2, 1, 1⟩ _ sample_order (by decide)
    (fun b b' => cubic_clear _ (by decide) _ (by funext i; simp)) (fun _ _ => 0) 1 1 _ (sample_describes _ _ _ _ _ one_ne_zero) true
    (Or.inl rfl) sampleFc sample_periodic sampleFile sample_file
  let x : CouplingInput := sampleInput
  have eval (w3 : V3 Int → Fin 1 → Fin 1 → ℝ) (hz : ∀ n : V3 Int, ¬ (n.y = 0 ∧ n.z = 0 ∧ (n.x = 0 ∨ n.x = 1 ∨ n.x = -1)) → w3 n 0 0 = 0) :
      weightedCoupling ⟨2, 1, 1⟩ (latVec unitCubic) (pairWeight unitCubic (fun (_ : Fin 1) _ => 0) ⟨2, 1, 1⟩) w3 (1 ^ 3 / 1) sampleFc
        1 (fun _ => 0) (fun i => x.q1 i + 0) (fun a => x.ev1 a 0) (fun a => if a = 0 then 1 else 0) (fun a => x.ev3Plus a 0) =
      ((2 * (w3 ⟨-1, 0, 0⟩ 0 0 + w3 ⟨1, 0, 0⟩ 0 0) : ℝ) : ℂ) := by
    unfold weightedCoupling scal
    simp only [Finset.univ_unique, Finset.sum_singleton, Fin.sum_univ_three]
    simp only [x, sampleInput, sampleFc]
    simp
    refine Eq.trans (Finset.sum_congr rfl fun n _ => box_sum (fun m => ((if m.x % 2 = 1 then
      pairWeight unitCubic (fun (_ : Fin 1) _ => 0) ⟨2, 1, 1⟩ ⟨n.1, n.2.1, n.2.2⟩ 0 0 * w3 m 0 0 else 0 : ℝ) : ℂ)) ?_) ?_
    · intro m hm
      simp [hz m hm]
    · refine Eq.trans (box_sum (fun n => (((if (-1 : ℤ) % 2 = 1 then pairWeight unitCubic (fun (_ : Fin 1) _ => 0) ⟨2, 1, 1⟩ n 0 0 * w3 ⟨-1, 0, 0⟩ 0 0 else 0 : ℝ) : ℂ) +
        ((if (0 : ℤ) % 2 = 1 then pairWeight unitCubic (fun (_ : Fin 1) _ => 0) ⟨2, 1, 1⟩ n 0 0 * w3 ⟨0, 0, 0⟩ 0 0 else 0 : ℝ) : ℂ) +
        ((if (1 : ℤ) % 2 = 1 then pairWeight unitCubic (fun (_ : Fin 1) _ => 0) ⟨2, 1, 1⟩ n 0 0 * w3 ⟨1, 0, 0⟩ 0 0 else 0 : ℝ) : ℂ))) ?_) ?_
      · intro n hn
        have : pairWeight unitCubic (fun (_ : Fin 1) _ => 0) ⟨2, 1, 1⟩ n 0 0 = 0 := by
          rw [weights_two]
          split_ifs with a1 a2 a3
          · exact absurd ⟨a1.1, a1.2, Or.inl a2⟩ hn
          · exact absurd ⟨a1.1, a1.2, Or.inr a3⟩ hn
          · rfl
          · rfl
        simp [this]
      · simp only [weights_two]
        norm_num
        push_cast
        ring
  refine ⟨o, _, h1, rfl, ?_, ?_⟩
  · have h3 := ((h2 [x] (fun _ => 0) (fun a _ => if a = 0 then 1 else 0) 1 _ rfl).2 0 x _ rfl rfl).1.2.2.2 0 (by decide) 0 (by decide) 0 (by decide)
    rw [h3, eval]
    · rw [weights_two, weights_two]
      norm_num [Complex.normSq_apply]
    · intro n hn
      rw [weights_two]
      split_ifs with a1 a2 a3
      · exact absurd ⟨a1.1, a1.2, Or.inl a2⟩ hn
      · exact absurd ⟨a1.1, a1.2, Or.inr a3⟩ hn
      · norm_num
      · norm_num
  · rw [eval]
    · rw [weights_two, weights_two]
      norm_num [Complex.normSq_apply]
    · intro n hn
      rw [weights_two]
      split_ifs with a1 a2 a3
      · exact absurd ⟨a1.1, a1.2, Or.inl a2⟩ hn
      · exact absurd ⟨a1.1, a1.2, Or.inr a3⟩ hn
      · norm_num
      · norm_num

/-- **C150 is violated** by a file of displacements without the supercell matrix: the dimensions are used without having been set. -/
theorem C150_violated_grid {A : Nat} (hA : 0 < A) (d : Mat3) (pos : Fin A → Vec3) (bohr ryd : ℝ) (fc : Fc3File) (lines : List YamlLine)
    (h : ∀ l ∈ lines, l.has "supercell_matrix:" = false) (hs : ∀ l ∈ lines, l.has "supercell:" = false ∧ l.has "phonon" = false) :
    parsePhono3py d pos bohr ryd true lines fc = .ub := by
  unfold parsePhono3py
  have hg : readGrid (endLine true lines) (lines ++ [endLine true lines]) = .ok none := by
    rw [readGrid_skip _ _ _ h]
    simp [readGrid, endLine]
  have hr : readSup (lines ++ [endLine true lines]) ⟨[], fun _ _ => 0, 3, false⟩ = .ok ⟨[], fun _ _ => 0, 3, false⟩ := by
    rw [readSup_skip _ _ _ rfl hs]
    simp [readSup, endLine, Outcome.bind_eq]
  simp only [Outcome.bind_eq, hg, hr, Outcome.bind_ok]
  rw [if_neg (by omega)]

theorem collect_ub {α β : Type} (f : α → Outcome (List β)) (l : List α) (h : ∀ a ∈ l, f a = .ub ∨ ∃ x, f a = .ok x) :
    ((∃ a ∈ l, f a = .ub) → collect f l = .ub) ∧ (collect f l = .ub ∨ ∃ x, collect f l = .ok x) := by
  induction l with
  | nil => exact ⟨fun ⟨a, ha, _⟩ => absurd ha List.not_mem_nil, Or.inr ⟨[], rfl⟩⟩
  | cons a l ih =>
    obtain ⟨i1, i2⟩ := ih fun b hb => h b (List.mem_cons_of_mem _ hb)
    simp only [collect, Outcome.bind_eq]
    rcases h a List.mem_cons_self with e | ⟨x, e⟩
    · rw [e]
      exact ⟨fun _ => rfl, Or.inl rfl⟩
    · rw [e, Outcome.bind_ok]
      constructor
      · rintro ⟨b, hb, hu⟩
        rcases List.mem_cons.mp hb with rfl | hb
        · rw [e] at hu; cases hu
        · rw [i1 ⟨b, hb, hu⟩]; rfl
      · rcases i2 with e2 | ⟨y, e2⟩
        · rw [e2]; exact Or.inl rfl
        · rw [e2]; exact Or.inr ⟨_, rfl⟩

theorem self_weight {A : Nat} (d : Mat3) (pos : Fin A → Vec3) (N : V3 Int) (b : Fin A) : 0 < p3Weight d pos N (latVec d ⟨0, 0, 0⟩) b b := by
  unfold p3Weight
  have hr : (fun i => latVec d ⟨0, 0, 0⟩ i - pos b i + pos b i) = fun _ => 0 := by
    funext i
    simp [latVec]
  rw [hr, (p3WeightLoop_eq _ _ 1).2]
  · positivity
  · intro g _
    have : wsCk (fun _ => 0) g = - (vdot g g / 2) := by simp [wsCk, vdot]
    rw [this]
    have : 0 ≤ vdot g g := by
      unfold vdot
      nlinarith [mul_self_nonneg (g 0), mul_self_nonneg (g 1), mul_self_nonneg (g 2)]
    norm_num
    linarith

/-- **C150 is violated** by files in the compact format of phono3py, whose first index runs over the atoms of the cell instead of those
of the supercell: the format is not checked, and elements outside of the array are read. -/
theorem C150_violated_compact {A : Nat} (hA : 2 ≤ A) (d : Mat3) (hap : LatticeApart d) (pos : Fin A → Fin 3 → ℝ) (N : V3 Int)
    (order : List (V3 Int)) (ho : IsOrder N order) (h2 : 2 ≤ order.length) (hint : ((A * order.length : Nat) : Int) ≤ intMax)
    (frac : Fin A → Fin 3 → ℝ) (bohr ryd : ℝ) (f : DispFile) (hdisp : f.Describes N d frac order bohr)
    (newline : Bool) (hn : newline = true ∨ f.post ≠ []) (fc : Fc3File)
    (hmap : fc.cellMap = (List.range A).map fun b => ((b * order.length : Nat) : Int)) (hd0 : fc.d0 = A) :
    parsePhono3py d pos bohr ryd newline f.lines fc = .ub := by
  classical
  rw [parse_p3 (by omega) d pos N order ho hint frac bohr ryd f hdisp newline hn fc]
  have hN := (order_length ho).1
  have sup (a sh : Nat) : superAtom fc a sh = .ub ∨ ∃ x, superAtom fc a sh = .ok x := by
    unfold superAtom cadd i32
    split
    · exact Or.inl rfl
    · split_ifs
      · exact Or.inr ⟨_, rfl⟩
      · exact Or.inl rfl
  have at3 (a b c : Int) : fc.at3 a b c = .ub ∨ ∃ x, fc.at3 a b c = .ok x := by
    unfold Fc3File.at3
    split_ifs
    · exact Or.inr ⟨_, rfl⟩
    · exact Or.inl rfl
  have one (na nb nc : Fin A) (i2 i3 j2 j3 : Nat) : ((do
        let sat1 ← superAtom fc na 0
        let sat2 ← superAtom fc nb j2
        let sat3 ← superAtom fc nc j3
        let v ← fc.at3 sat1 sat2 sat3
        .ok [⟨na, nb, nc, i3, i2, fun i j k => v i j k * (bohr ^ 3 / ryd)⟩] : Outcome (List P3Entry)) = .ub) ∨ ∃ x, (do
        let sat1 ← superAtom fc na 0
        let sat2 ← superAtom fc nb j2
        let sat3 ← superAtom fc nc j3
        let v ← fc.at3 sat1 sat2 sat3
        .ok [⟨na, nb, nc, i3, i2, fun i j k => v i j k * (bohr ^ 3 / ryd)⟩] : Outcome (List P3Entry)) = .ok x := by
    simp only [Outcome.bind_eq]
    rcases sup na 0 with e | ⟨a, e⟩
    · rw [e]; exact Or.inl rfl
    rw [e, Outcome.bind_ok]
    rcases sup nb j2 with e | ⟨b, e⟩
    · rw [e]; exact Or.inl rfl
    rw [e, Outcome.bind_ok]
    rcases sup nc j3 with e | ⟨c, e⟩
    · rw [e]; exact Or.inl rfl
    rw [e, Outcome.bind_ok]
    rcases at3 a b c with e | ⟨v, e⟩
    · rw [e]; exact Or.inl rfl
    rw [e, Outcome.bind_ok]
    exact Or.inr ⟨_, rfl⟩
  have l3 (R3 : Vec3) (na nb : Fin A) (i2 i3 j2 j3 : Nat) : ∀ nc ∈ List.finRange A, (fun nc : Fin A =>
      if p3Weight d pos N R3 na nc = 0 then .ok []
      else do
        let sat1 ← superAtom fc na 0
        let sat2 ← superAtom fc nb j2
        let sat3 ← superAtom fc nc j3
        let v ← fc.at3 sat1 sat2 sat3
        .ok [⟨na, nb, nc, i3, i2, fun i j k => v i j k * (bohr ^ 3 / ryd)⟩] : Fin A → Outcome (List P3Entry)) nc = .ub ∨ ∃ x, (fun nc : Fin A =>
      if p3Weight d pos N R3 na nc = 0 then .ok []
      else do
        let sat1 ← superAtom fc na 0
        let sat2 ← superAtom fc nb j2
        let sat3 ← superAtom fc nc j3
        let v ← fc.at3 sat1 sat2 sat3
        .ok [⟨na, nb, nc, i3, i2, fun i j k => v i j k * (bohr ^ 3 / ryd)⟩] : Fin A → Outcome (List P3Entry)) nc = .ok x := by
    intro nc _
    simp only
    by_cases hz : p3Weight d pos N R3 na nc = 0
    · simp only [if_pos hz]
      exact Or.inr ⟨_, rfl⟩
    · simp only [if_neg hz]
      exact one na nb nc i2 i3 j2 j3
  -- the last atom of the cell is outside of the array
  have hlast : ∀ j2 j3 i2 i3 : Nat, p3Atoms d pos N fc (bohr ^ 3 / ryd) (latVec d ⟨0, 0, 0⟩) (latVec d ⟨0, 0, 0⟩) i2 i3 j2 j3 = .ub := by
    intro j2 j3 i2 i3
    obtain ⟨b, hb⟩ : ∃ b : Fin A, (b : Nat) = A - 1 := ⟨⟨A - 1, by omega⟩, rfl⟩
    have hw := self_weight d pos N b
    unfold p3Atoms
    refine (collect_ub _ _ ?_).1 ⟨b, List.mem_finRange _, (collect_ub _ _ ?_).1 ⟨b, List.mem_finRange _, ?_⟩⟩
    · intro na _
      refine (collect_ub _ _ ?_).2
      intro nb _
      split_ifs
      · exact Or.inr ⟨_, rfl⟩
      · exact (collect_ub _ _ (l3 _ na nb i2 i3 j2 j3)).2
    · intro nb _
      split_ifs
      · exact Or.inr ⟨_, rfl⟩
      · exact (collect_ub _ _ (l3 _ b nb i2 i3 j2 j3)).2
    · rw [if_neg hw.ne']
      refine (collect_ub _ _ (l3 _ b b i2 i3 j2 j3)).1 ⟨b, List.mem_finRange _, ?_⟩
      rw [if_neg hw.ne']
      have hlt : (b : Nat) < A := b.isLt
      have hbl : (b : Nat) * order.length ≤ A * order.length := Nat.mul_le_mul_right _ hlt.le
      have hmin : intMin ≤ 0 := by decide
      have hs1 : superAtom fc b 0 = .ok (((b : Nat) * order.length : Nat) : Int) := by
        unfold superAtom
        rw [hmap, List.getElem?_map, List.getElem?_range hlt]
        simp only [Option.map_some, Nat.cast_zero]
        rw [cadd_ok (by omega) (by omega), add_zero]
      simp only [Outcome.bind_eq]
      rw [hs1, Outcome.bind_ok]
      rcases sup b j2 with e | ⟨x, e⟩
      · rw [e]; rfl
      rw [e, Outcome.bind_ok]
      rcases sup b j3 with e | ⟨y, e⟩
      · rw [e]; rfl
      rw [e, Outcome.bind_ok]
      have h3 : fc.at3 (((b : Nat) * order.length : Nat) : Int) x y = .ub := by
        unfold Fc3File.at3
        rw [if_neg]
        rintro ⟨_, hlt2, _⟩
        rw [hd0] at hlt2
        have : A ≤ (b : Nat) * order.length := by
          rw [hb]
          calc A ≤ (A - 1) * 2 := by omega
            _ ≤ (A - 1) * order.length := Nat.mul_le_mul_left _ h2
        omega
      rw [h3]
      rfl
  have atoms (R2 R3 : Vec3) (i2 i3 j2 j3 : Nat) : p3Atoms d pos N fc (bohr ^ 3 / ryd) R2 R3 i2 i3 j2 j3 = .ub ∨
      ∃ x, p3Atoms d pos N fc (bohr ^ 3 / ryd) R2 R3 i2 i3 j2 j3 = .ok x := by
    unfold p3Atoms
    refine (collect_ub _ _ ?_).2
    intro na _
    refine (collect_ub _ _ ?_).2
    intro nb _
    split_ifs
    · exact Or.inr ⟨_, rfl⟩
    · exact (collect_ub _ _ (l3 _ na nb i2 i3 j2 j3)).2
  have inner (n : V3 Int) (i2 j2 : Nat) (m : V3 Int) : (match (p3Vectors d pos N).findIdx? fun v => decide (v = latVec d m) with
        | none => .ok []
        | some iR3 => do
          let ir3 ← findIndexRow (order.map (latVec d)) (p3Folded d N m)
          p3Atoms d pos N fc (bohr ^ 3 / ryd) (latVec d n) (latVec d m) i2 iR3 j2 ir3 : Outcome (List P3Entry)) = .ub ∨
      ∃ x, (match (p3Vectors d pos N).findIdx? fun v => decide (v = latVec d m) with
        | none => .ok []
        | some iR3 => do
          let ir3 ← findIndexRow (order.map (latVec d)) (p3Folded d N m)
          p3Atoms d pos N fc (bohr ^ 3 / ryd) (latVec d n) (latVec d m) i2 iR3 j2 ir3 : Outcome (List P3Entry)) = .ok x := by
    obtain ⟨s3, h3⟩ := order_of_fold ho hN.1 hN.2.1 hN.2.2 m
    cases (p3Vectors d pos N).findIdx? fun v => decide (v = latVec d m) with
    | none => exact Or.inr ⟨_, rfl⟩
    | some iR3 =>
      simp only
      rw [show p3Folded d N m = latVec d ⟨p3Fold N.x m.x, p3Fold N.y m.y, p3Fold N.z m.z⟩ from rfl,
        findIndexRow_cells d hap order ho.nodup _ s3 h3, Outcome.bind_eq, Outcome.bind_ok]
      exact atoms _ _ _ _ _ _
  have hz : (⟨0, 0, 0⟩ : V3 Int) ∈ p3Box N := (mem_p3Box N _).mpr (by simp only; omega)
  obtain ⟨r0, hr0⟩ : ∃ r, (p3Vectors d pos N).findIdx? (fun v => decide (v = latVec d ⟨0, 0, 0⟩)) = some r := by
    have hm : latVec d ⟨0, 0, 0⟩ ∈ p3Vectors d pos N := (mem_p3Vectors d pos N _).mpr ⟨_, hz, rfl, ⟨0, by omega⟩, ⟨0, by omega⟩, self_weight d pos N _⟩
    obtain ⟨r, hr, e⟩ := List.getElem_of_mem hm
    exact ⟨r, (findIdx_vector _ (nodup_p3Vectors d pos N) _).2 r (by rw [List.getElem?_eq_getElem hr, e])⟩
  have hentries : p3Entries d pos N (order.map (latVec d)) fc (bohr ^ 3 / ryd) = .ub := by
    unfold p3Entries
    refine (collect_ub _ _ ?_).1 ⟨⟨0, 0, 0⟩, hz, ?_⟩
    · intro n _
      obtain ⟨s2, h2⟩ := order_of_fold ho hN.1 hN.2.1 hN.2.2 n
      cases (p3Vectors d pos N).findIdx? fun v => decide (v = latVec d n) with
      | none => exact Or.inr ⟨_, rfl⟩
      | some iR2 =>
        simp only
        rw [show p3Folded d N n = latVec d ⟨p3Fold N.x n.x, p3Fold N.y n.y, p3Fold N.z n.z⟩ from rfl,
          findIndexRow_cells d hap order ho.nodup _ s2 h2, Outcome.bind_eq, Outcome.bind_ok]
        exact (collect_ub _ _ fun m _ => inner n iR2 s2 m).2
    · obtain ⟨s2, h2⟩ := order_of_fold ho hN.1 hN.2.1 hN.2.2 ⟨0, 0, 0⟩
      rw [hr0]
      simp only
      rw [show p3Folded d N ⟨0, 0, 0⟩ = latVec d ⟨p3Fold N.x 0, p3Fold N.y 0, p3Fold N.z 0⟩ from rfl,
        findIndexRow_cells d hap order ho.nodup _ s2 h2, Outcome.bind_eq, Outcome.bind_ok]
      refine (collect_ub _ _ fun m _ => inner ⟨0, 0, 0⟩ r0 s2 m).1 ⟨⟨0, 0, 0⟩, hz, ?_⟩
      rw [hr0]
      simp only
      rw [show p3Folded d N ⟨0, 0, 0⟩ = latVec d ⟨p3Fold N.x 0, p3Fold N.y 0, p3Fold N.z 0⟩ from rfl,
        findIndexRow_cells d hap order ho.nodup _ s2 h2, Outcome.bind_eq, Outcome.bind_ok]
      exact hlast _ _ _ _
  unfold p3Make
  rw [hentries]
  rfl

/-- Two atoms in two cells. -/
example : parsePhono3py unitCubic (fun (_ : Fin 2) _ => 0) 1 1 true
    (sampleDisp ⟨2, 1, 1⟩ unitCubic (fun (_ : Fin 2) _ => 0) [⟨0, 0, 0⟩, ⟨1, 0, 0⟩] 1).lines ⟨2, 4, 4, fun _ _ _ _ _ _ => 1, [0, 2]⟩ = .ub :=
  C150_violated_compact (by decide) _ cubic_apart _ ⟨2, 1, 1⟩ _ sample_order (by decide) (by decide) (fun _ _ => 0) _ _ _
    (sample_describes _ _ _ _ _ one_ne_zero) _ (Or.inl rfl) _ rfl rfl

/-- C150: displacements of a crystal with another number of atoms are refused. -/
theorem C150_refused_atoms {A B : Nat} (hA : 0 < A) (hAB : A ≠ B) (d d' : Mat3) (pos : Fin A → Vec3) (N : V3 Int) (order : List (V3 Int))
    (ho : IsOrder N order) (hint : ((B * order.length : Nat) : Int) ≤ intMax) (hi2 : (order.length : Int) ≤ intMax) (frac : Fin B → Fin 3 → ℝ) (bohr ryd : ℝ)
    (f : DispFile) (h : f.Describes N d' frac order bohr) (newline : Bool) (hn : newline = true ∨ f.post ≠ []) (fc : Fc3File) :
    parsePhono3py d pos bohr ryd newline f.lines fc = .error := by
  obtain ⟨v, lat, unit, hv, l0, l1, l2, hg, hu, hs⟩ := readDisp f N d' frac order bohr h newline hn
  obtain ⟨⟨hx, hy, hz⟩, hlen⟩ := order_length ho
  have hxy : 0 < N.x * N.y := by positivity
  have hp : 0 < N.x * N.y * N.z := by positivity
  have hL : 0 < order.length := by omega
  have hle : N.x * N.y * N.z ≤ intMax := by rw [← hlen]; exact hi2
  have hle2 : N.x * N.y ≤ intMax := by nlinarith
  have hmin : intMin < 0 := by decide
  unfold parsePhono3py
  simp only [Outcome.bind_eq, hg, hu, hs, Outcome.bind_ok]
  rw [if_neg (by omega), cmul_ok (by omega) hle2, Outcome.bind_ok, cmul_ok (by omega) hle, Outcome.bind_ok]
  have hplen : ((List.finRange B).flatMap fun b => order.map fun c k => (frac b k + asFun c k) / asFun N k : List (Fin 3 → ℝ)).length =
      B * order.length := by
    rw [List.length_flatMap]
    simp
  have hcd : cdiv (((List.finRange B).flatMap fun b => order.map fun c k => (frac b k + asFun c k) / asFun N k :
      List (Fin 3 → ℝ)).length : Nat) (N.x * N.y * N.z) = .ok B := by
    rw [hplen]
    unfold cdiv
    rw [← hlen, if_neg (by omega)]
    have : Int.tdiv ((B * order.length : Nat) : Int) (order.length : Int) = B := by
      push_cast
      exact Int.mul_tdiv_cancel _ (by omega)
    rw [this]
    unfold i32
    rw [if_pos]
    constructor
    · omega
    · refine le_trans ?_ hint
      push_cast
      nlinarith
  rw [hcd, Outcome.bind_ok, if_pos]
  intro e
  exact hAB (by exact_mod_cast e.symm)

/-- Two atoms in the file, one in the crystal. -/
example : parsePhono3py unitCubic (fun (_ : Fin 1) _ => 0) 1 1 true
    (sampleDisp ⟨2, 1, 1⟩ unitCubic (fun (_ : Fin 2) _ => 0) [⟨0, 0, 0⟩, ⟨1, 0, 0⟩] 1).lines sampleFile = .error :=
  C150_refused_atoms (by decide) (by decide) _ unitCubic _ ⟨2, 1, 1⟩ _ sample_order (by decide) (by decide) _ 1 1 _
    (sample_describes _ _ _ _ _ one_ne_zero) true (Or.inl rfl) _

theorem gridRow_val {l : YamlLine} {w w' : YamlWord} {more : List YamlWord} {m : Fin 3 → Int}
    (h : l.tok = w :: w' :: .int (m 0) :: .int (m 1) :: .int (m 2) :: more) (i : Fin 3) :
    (gridRow l i = .ok (m i) ∧ ∀ j, j ≠ i → m j = 0) ∨ (gridRow l i = .error ∧ ∃ j, j ≠ i ∧ m j ≠ 0) := by
  have h0 : l.int 2 = .ok (m 0) := by simp [YamlLine.int, h]
  have h1 : l.int 3 = .ok (m 1) := by simp [YamlLine.int, h]
  have h2 : l.int 4 = .ok (m 2) := by simp [YamlLine.int, h]
  have hi : l.int (2 + i) = .ok (m i) := by
    fin_cases i
    · exact h0
    · exact h1
    · exact h2
  unfold gridRow
  simp only [hi, h0, h1, h2, Outcome.bind_eq, Outcome.bind_ok]
  by_cases c0 : 0 ≠ (i : Nat) ∧ m 0 ≠ 0
  · rw [if_pos c0]
    exact Or.inr ⟨rfl, 0, fun e => c0.1 (by rw [← e]; rfl), c0.2⟩
  rw [if_neg c0]
  by_cases c1 : 1 ≠ (i : Nat) ∧ m 1 ≠ 0
  · rw [if_pos c1]
    exact Or.inr ⟨rfl, 1, fun e => c1.1 (by rw [← e]; rfl), c1.2⟩
  rw [if_neg c1]
  by_cases c2 : 2 ≠ (i : Nat) ∧ m 2 ≠ 0
  · rw [if_pos c2]
    exact Or.inr ⟨rfl, 2, fun e => c2.1 (by rw [← e]; rfl), c2.2⟩
  rw [if_neg c2]
  refine Or.inl ⟨rfl, ?_⟩
  intro j hj
  have hj' : (j : Nat) ≠ i := fun e => hj (Fin.ext e)
  fin_cases j
  · by_contra hc; exact c0 ⟨hj', hc⟩
  · by_contra hc; exact c1 ⟨hj', hc⟩
  · by_contra hc; exact c2 ⟨hj', hc⟩

/-- C150: supercells that are not made of whole copies along the three lattice vectors are refused: the matrix `M` of the file has an element out of the
diagonal. -/
theorem C150_refused_matrix {A : Nat} (d : Mat3) (pos : Fin A → Vec3) (bohr ryd : ℝ) (fc : Fc3File) (newline : Bool)
    (pre : List YamlLine) (sm : YamlLine) (g : Fin 3 → YamlLine) (post : List YamlLine) (M : Fin 3 → Fin 3 → Int)
    (hpre : ∀ l ∈ pre, l.has "supercell_matrix:" = false) (hsm : sm.has "supercell_matrix:" = true)
    (hg : ∀ i, ∃ w w' more, (g i).tok = w :: w' :: .int (M i 0) :: .int (M i 1) :: .int (M i 2) :: more)
    (hM : ∃ i j, i ≠ j ∧ M i j ≠ 0) :
    parsePhono3py d pos bohr ryd newline (pre ++ sm :: g 0 :: g 1 :: g 2 :: post) fc = .error := by
  unfold parsePhono3py
  have hr : ∀ last, readGrid last (pre ++ sm :: g 0 :: g 1 :: g 2 :: post ++ [last]) = .error := by
    intro last
    rw [List.append_assoc, readGrid_skip _ _ _ hpre]
    simp only [List.cons_append, readGrid]
    rw [if_pos hsm]
    simp only [List.getD_cons_zero, List.getD_cons_succ]
    obtain ⟨w0, w0', m0, e0⟩ := hg 0
    obtain ⟨w1, w1', m1, e1⟩ := hg 1
    obtain ⟨w2, w2', m2, e2⟩ := hg 2
    have r0 := gridRow_val e0 0
    have r1 := gridRow_val e1 1
    have r2 := gridRow_val e2 2
    simp only [Fin.val_zero, Fin.val_one, Fin.val_two] at r0 r1 r2
    rcases r0 with ⟨r0, z0⟩ | ⟨r0, -⟩
    · rw [r0]
      rcases r1 with ⟨r1, z1⟩ | ⟨r1, -⟩
      · rw [r1]
        rcases r2 with ⟨r2, z2⟩ | ⟨r2, -⟩
        · exfalso
          obtain ⟨i, j, hij, hne⟩ := hM
          fin_cases i
          · exact hne (z0 j hij.symm)
          · exact hne (z1 j hij.symm)
          · exact hne (z2 j hij.symm)
        · rw [r2]; rfl
      · rw [r1]; rfl
    · rw [r0]; rfl
  simp only [hr]
  rfl

/-- A face-centred supercell of a cubic cell. -/
example : parsePhono3py unitCubic (fun (_ : Fin 1) _ => 0) 1 1 true
    ([] ++ ⟨fun s => decide (s = "supercell_matrix:"), [.word]⟩ :: ⟨fun _ => false, [.word, .word, .int 0, .int 1, .int 1]⟩ ::
      ⟨fun _ => false, [.word, .word, .int 1, .int 0, .int 1]⟩ :: ⟨fun _ => false, [.word, .word, .int 1, .int 1, .int 0]⟩ :: []) sampleFile = .error :=
  C150_refused_matrix _ _ 1 1 _ true [] ⟨fun s => decide (s = "supercell_matrix:"), [.word]⟩
    ![⟨fun _ => false, [.word, .word, .int 0, .int 1, .int 1]⟩, ⟨fun _ => false, [.word, .word, .int 1, .int 0, .int 1]⟩,
      ⟨fun _ => false, [.word, .word, .int 1, .int 1, .int 0]⟩] [] ![![0, 1, 1], ![1, 0, 1], ![1, 1, 0]] (by simp) (by simp)
    (by intro i; fin_cases i <;> exact ⟨_, _, _, rfl⟩) ⟨0, 1, by decide, by decide⟩

end Verif.Props
