import Verif.Proofs.Phonopy2

namespace Verif.Proofs
open Verif.Model Verif.Spec Verif.Props

theorem fc2Atom_val {A : Nat} (f : Fc2File) (len : Nat) (hmap : f.cellMap = (List.range A).map fun b => ((b * len : Nat) : Int))
    (hN : ((A * len : Nat) : Int) ≤ intMax) (b s : Nat) (hb : b < A) (hs : s < len) :
    fc2Atom f b s = .ok (((b * len + s : Nat) : Int)) ∧ b * len + s < A * len := by
  have hlt : b * len + s < A * len := by
    calc b * len + s < b * len + len := by omega
      _ = (b + 1) * len := by ring
      _ ≤ A * len := Nat.mul_le_mul_right _ hb
  refine ⟨?_, hlt⟩
  unfold fc2Atom
  rw [hmap, List.getElem?_map, List.getElem?_range hb]
  simp only [Option.map_some]
  rw [cadd_ok (by rw [intMin]; omega) (by omega)]
  push_cast
  rfl

theorem fc2Block_full {A : Nat} (N : V3 Int) (order : List (V3 Int)) (ho : IsOrder N order) (Phi : HarmonicFc A) (f : Fc2File) (conv : ℝ)
    (h : IsFullFc2 order Phi f) (hN : ((A * order.length : Nat) : Int) ≤ intMax) (s : Nat) (c : V3 Int) (hs : order[s]? = some c)
    (b b' : Fin A) : fc2Block f conv s b b' = .ok fun i j => Phi b c b' i j * conv := by
  have hl : s < order.length := (List.getElem?_eq_some_iff.mp hs).1
  have h0 : 0 < order.length := by omega
  obtain ⟨e1, l1⟩ := fc2Atom_val f order.length h.map hN b s b.2 hl
  obtain ⟨e2, l2⟩ := fc2Atom_val f order.length h.map hN b' 0 b'.2 h0
  unfold fc2Block
  rw [if_neg (by rw [h.size0, h.size1]; simp)]
  simp only [e1, e2, Outcome.bind_eq, Outcome.bind_ok, Fc2File.at2, h.size0, h.size1]
  rw [if_pos (by constructor <;> constructor <;> omega)]
  simp only [Outcome.bind_ok, Int.toNat_natCast]
  rw [h.val b b' s 0 c ⟨0, 0, 0⟩ hs ho.home]
  simp

theorem fc2Block_compact {A : Nat} (N : V3 Int) (order : List (V3 Int)) (ho : IsOrder N order) (Phi : HarmonicFc A) (hsym : SymmetricHarmonic Phi)
    (f : Fc2File) (conv : ℝ) (h1 : order.length ≠ 1)
    (h : IsCompactFc2 order Phi f) (hN : ((A * order.length : Nat) : Int) ≤ intMax) (s : Nat) (c : V3 Int) (hs : order[s]? = some c)
    (b b' : Fin A) : fc2Block f conv s b b' = .ok fun i j => Phi b c b' j i * conv := by
  have hl : s < order.length := (List.getElem?_eq_some_iff.mp hs).1
  have hA : 0 < A := b.pos
  obtain ⟨e1, l1⟩ := fc2Atom_val f order.length h.map hN b s b.2 hl
  unfold fc2Block
  rw [if_pos (by
    rw [h.size0, h.size1]
    intro he
    exact h1 (Nat.eq_of_mul_eq_mul_left hA (by rw [← he, Nat.mul_one])))]
  simp only [e1, Outcome.bind_eq, Outcome.bind_ok, Fc2File.at2, h.size0, h.size1]
  rw [if_pos (by constructor <;> constructor <;> omega)]
  simp only [Outcome.bind_ok, Int.toNat_natCast, Outcome.ok.injEq]
  rw [h.val b' b s c hs]
  funext i j
  rw [hsym b' b _ i j]
  simp

/-- What is passed on, given the charges and the elements. -/
structure Known {A : Nat} (names : List (List Char)) (species : List Nat) (masses : List ℝ) (name : Fin A → List Char) (m : Fin A → ℝ) : Prop where
  length : species.length = A
  val : ∀ b : Fin A, ∃ k, species[b.val]? = some k ∧ names[k]? = some (name b) ∧ masses[k]? = some (m b)
  masses : masses.length = names.length
  only : ∀ x ∈ names, ∃ b, name b = x

theorem parse_prefix {A : Nat} (hA : 0 < A) (f : PhonopyFile) (N : V3 Int) (own : Bool) (d : Mat3) (name : Fin A → List Char) (frac : Fin A → Fin 3 → ℝ)
    (order : List (V3 Int)) (bohr ryd amu : ℝ) (mass : List Char → Outcome ℝ) (m : Fin A → ℝ) (evAng : String → Bool)
    (h : f.Describes N own d name frac order bohr) (ho : IsOrder N order) (hN : ((A * order.length : Nat) : Int) ≤ intMax)
    (hm : ∀ b, mass (name b) = .ok (m b)) (fc : Fc2File) (born : Option (List BornLine)) :
    ∃ (names : List (List Char)) (species : List Nat) (masses : List ℝ), Known names species masses name m ∧
      parsePhonopy bohr ryd amu mass evAng true f.lines born fc =
        (bornOf A (Finset.univ.image name).card born).bind fun bs =>
          if fc.cellMap.length ≠ A then .error
          else (phEntries A d N (order.map (latVec d)) fc (if evAng fc.unit then bohr ^ 2 / ryd else 1)).bind fun es =>
            .ok ⟨d, (List.finRange A).map (fun b i => d i 0 * frac b 0 + d i 1 * frac b 1 + d i 2 * frac b 2), species, names, masses.map (· * amu),
              fun i j => (bs.dielectric.getD []).getD (3 * i + j) 0, fun a i j => (bs.charges.getD a []).getD (3 * i + j) 0, N, es⟩ := by
  obtain ⟨⟨hx, hy, hz⟩, hlen⟩ := order_length ho
  have hprod : (order.length : Int) ≤ intMax := by
    have : order.length ≤ A * order.length := Nat.le_mul_of_pos_left _ hA
    omega
  obtain ⟨s, v, w, e1, hv, ⟨hw1, hw2⟩, c0, c1, c2, hpos, hnum⟩ := readCell_file f N own d name frac order bohr h
    ((f.between ++ f.su :: f.slat :: f.v 0 :: f.v 1 :: f.v 2 :: f.coords) ++ [PhLine.blank])
  obtain ⟨search, hsearch⟩ : ∃ search, search = (if own then "phonon_supercell:" else "supercell:") := ⟨_, rfl⟩
  rw [← hsearch] at hw1
  have e2 : phSup search ((f.between ++ f.su :: f.slat :: f.v 0 :: f.v 1 :: f.v 2 :: f.coords) ++ [PhLine.blank]) ⟨[], fun _ _ => 0, 3, false⟩ =
      .ok ⟨(List.finRange A).flatMap fun b => order.map fun c k => (frac b k + asFun c k) / asFun N k,
        Function.update (Function.update (Function.update (fun _ _ => 0) 0 (w 0)) 1 (w 1)) 2 (w 2), 3, true⟩ := by
    rw [List.append_assoc, phSup_skip _ _ _ _ rfl (by rw [hsearch]; exact h.between)]
    simp only [List.cons_append]
    rw [phSup_head _ _ _ _ _ w hw1 h.supOther, phSup_coords _ _ _ _ h.coords]
    simp [phSup, PhLine.blank, Outcome.bind_eq]
  obtain ⟨unit, hunit⟩ : ∃ unit : ℝ, unit = if s.au then 1 else 1 / bohr := ⟨_, rfl⟩
  rw [← hunit] at hv hw2
  have hmasses : mapOutcome mass s.names = .ok (s.names.map fun x => match mass x with | .ok r => r | _ => 0) := by
    apply mapOutcome_ok
    intro x hx
    have := (hnum.mem x).mp hx
    obtain ⟨b, -, rfl⟩ := List.mem_map.mp this
    rw [hm b]
  obtain ⟨D, hD⟩ : ∃ D : Mat3, D = fun i k => (if k = 0 then v 0 i else if k = 1 then v 1 i else v 2 i) * unit := ⟨_, rfl⟩
  have hDd : D = d := by
    rw [hD]
    funext i k
    fin_cases k
    · exact hv 0 i
    · exact hv 1 i
    · exact hv 2 i
  have hN3 : ∀ k, (asFun N k : ℝ) ≠ 0 := by
    intro k
    have : 0 < asFun N k := by fin_cases k <;> assumption
    exact_mod_cast this.ne'
  obtain ⟨F, hF⟩ : ∃ F : Fin A → V3 Int → Vec3, F = fun b c i => d i 0 * (frac b 0 + asFun c 0) + d i 1 * (frac b 1 + asFun c 1) +
    d i 2 * (frac b 2 + asFun c 2) := ⟨_, rfl⟩
  obtain ⟨sup, hsup⟩ : ∃ sup : List Vec3, sup = (List.finRange A).flatMap fun b => order.map (F b) := ⟨_, rfl⟩
  have hsup' : (((List.finRange A).flatMap fun b => order.map fun c k => ((frac b k + asFun c k) / asFun N k : ℝ)).map fun x : Fin 3 → ℝ => fun i =>
      (Function.update (Function.update (Function.update (fun (_ : Nat) (_ : Fin 3) => (0 : ℝ)) 0 (w 0)) 1 (w 1)) 2 (w 2) 0 i * unit) * x 0 +
      (Function.update (Function.update (Function.update (fun (_ : Nat) (_ : Fin 3) => (0 : ℝ)) 0 (w 0)) 1 (w 1)) 2 (w 2) 1 i * unit) * x 1 +
      (Function.update (Function.update (Function.update (fun (_ : Nat) (_ : Fin 3) => (0 : ℝ)) 0 (w 0)) 1 (w 1)) 2 (w 2) 2 i * unit) * x 2) = sup := by
    rw [hsup, List.map_flatMap]
    congr 1
    funext b
    rw [List.map_map]
    congr 1
    funext c i
    have h0 := hw2 0 i
    have h1 := hw2 1 i
    have h2 := hw2 2 i
    have n0 := hN3 0
    have n1 := hN3 1
    have n2 := hN3 2
    simp only [Function.comp, Function.update_self, Function.update_of_ne (show (0 : Nat) ≠ 2 by decide), Function.update_of_ne (show (0 : Nat) ≠ 1 by decide),
      Function.update_of_ne (show (1 : Nat) ≠ 2 by decide), hF]
    rw [h0, h1, h2]
    field_simp
  have hlsup : sup.length = A * order.length := by
    rw [hsup, List.length_flatMap]
    simp
  have hcells : ((sup.take order.length).map fun (x : Vec3) i => x i - sup.getD 0 (fun _ => 0) i) = order.map (latVec d) := by
    obtain ⟨A', rfl⟩ : ∃ A', A = A' + 1 := ⟨A - 1, by omega⟩
    have e : sup = order.map (F 0) ++ ((List.finRange A').map Fin.succ).flatMap fun b => order.map (F b) := by
      rw [hsup, List.finRange_succ, List.flatMap_cons]
    rw [e, List.take_left' (by simp)]
    have e' : (order.map (F 0) ++ ((List.finRange A').map Fin.succ).flatMap fun b => order.map (F b)).getD 0 (fun _ => 0) = F 0 ⟨0, 0, 0⟩ := by
      obtain ⟨hl, -⟩ := List.getElem?_eq_some_iff.mp ho.home
      rw [List.getD_eq_getElem?_getD, List.getElem?_append_left (by simpa using hl), List.getElem?_map, ho.home]
      rfl
    rw [e', List.map_map]
    congr 1
    funext c i
    simp only [Function.comp, hF, latVec, asFun]
    simp
    ring
  have hplen : s.positions.length = A := by rw [hpos]; simp
  have hlines : f.lines ++ [PhLine.blank] = f.upToCell ++ .blank ::
      ((f.between ++ f.su :: f.slat :: f.v 0 :: f.v 1 :: f.v 2 :: f.coords) ++ [PhLine.blank]) := by
    simp [PhonopyFile.lines]
  refine ⟨s.names, s.species.take A, s.names.map (fun x => match mass x with | .ok r => r | _ => 0), ⟨?_, ?_, by simp, ?_⟩, ?_⟩
  · rw [List.length_take, hnum.length]
    simp
  · intro b
    have hbn : ((List.finRange A).map name)[b.val]? = some (name b) := by
      rw [List.getElem?_map, List.getElem?_eq_getElem (by simp)]
      simp
    obtain ⟨k, k1, k2⟩ := hnum.val b (name b) hbn
    refine ⟨k, ?_, k2, ?_⟩
    · rw [List.getElem?_take, if_pos b.2]
      exact k1
    · rw [List.getElem?_map, k2, Option.map_some, hm b]
  · intro x hx
    obtain ⟨b, -, hb⟩ := List.mem_map.mp ((hnum.mem x).mp hx)
    exact ⟨b, hb⟩
  · unfold parsePhonopy
    simp only [phEnd, if_true, Outcome.bind_eq]
    rw [phDims_val _ _ _ _ _ h.supercell]
    simp only [Outcome.bind_ok]
    rw [if_neg (by omega), hlines, e1]
    simp only [Outcome.bind_ok]
    rw [← hsearch, e2]
    simp only [Outcome.bind_ok, c0, c1, c2]
    rw [if_neg (by rw [hnum.length, hplen]; simp), hmasses]
    simp only [Outcome.bind_ok, ← hunit, ← hD, hDd]
    have hxy : N.x * N.y ≤ intMax := by
      have : N.x * N.y * 1 ≤ N.x * N.y * N.z := mul_le_mul_of_nonneg_left (by omega) (by positivity)
      omega
    rw [cmul_ok (by have := mul_pos hx hy; rw [intMin]; omega) hxy]
    simp only [Outcome.bind_ok]
    rw [cmul_ok (by have := mul_pos (mul_pos hx hy) hz; rw [intMin]; omega) (by omega)]
    simp only [Outcome.bind_ok, ← hlen]
    have e3 := hsup'
    simp only [Fin.val_zero, Fin.val_one, Fin.val_two] at e3 ⊢
    rw [e3, if_neg (by
      rw [hlsup, not_lt]
      exact_mod_cast Nat.le_mul_of_pos_left _ hA)]
    rw [hplen, numbered_count name s hnum, Int.toNat_natCast, hcells, hpos]
    simp [hv, Function.comp_def]

theorem parse_core {A : Nat} (hA : 0 < A) (f : PhonopyFile) (N : V3 Int) (own : Bool) (d : Mat3) (name : Fin A → List Char) (frac : Fin A → Fin 3 → ℝ)
    (order : List (V3 Int)) (bohr ryd amu : ℝ) (mass : List Char → Outcome ℝ) (m : Fin A → ℝ) (evAng : String → Bool)
    (h : f.Describes N own d name frac order bohr) (ho : IsOrder N order) (hd : LatticeApart6 d) (hN : ((A * order.length : Nat) : Int) ≤ intMax)
    (hm : ∀ b, mass (name b) = .ok (m b)) (fc : Fc2File) (hc : fc.cellMap.length = A) (h0 : fc.d0 ≠ 0)
    (V : V3 Int → Nat → Nat → Fin 3 → Fin 3 → ℝ)
    (hV : ∀ (s : Nat) (c : V3 Int), order[s]? = some c → ∀ b b', b < A → b' < A →
      fc2Block fc (if evAng fc.unit then bohr ^ 2 / ryd else 1) s b b' = .ok (V c b b'))
    (born : Option (List BornLine)) (bs : BornState) (hb0 : born = none → bs = ⟨none, []⟩)
    (hb : ∀ ls, born = some ls → bornFile A (Finset.univ.image name).card ls = .ok bs) :
    ∃ p, parsePhonopy bohr ryd amu mass evAng true f.lines born fc = .ok p ∧ ReadAs p N d name frac m amu ∧
      (∀ n ∈ order, ∀ b b' : Fin A, ∀ i j, p.force n b b' i j = some (V n b b' i j)) ∧
      (p.dielectric = fun (i j : Fin 3) => (bs.dielectric.getD []).getD (3 * i + j) 0) ∧
      p.born = fun a (i j : Fin 3) => (bs.charges.getD a []).getD (3 * i + j) 0 := by
  obtain ⟨names, species, masses, hk, e⟩ := parse_prefix hA f N own d name frac order bohr ryd amu mass m evAng h ho hN hm fc born
  obtain ⟨es, hes, hfind⟩ := phEntries_val A d N order fc (if evAng fc.unit then bohr ^ 2 / ryd else 1) hd ho h0 V hV
  have hborn : bornOf A (Finset.univ.image name).card born = .ok bs := by
    rcases born with _ | ls
    · rw [hb0 rfl]
      rfl
    · exact hb ls rfl
  rw [hborn, Outcome.bind_ok, if_neg (by rw [hc]; simp), hes, Outcome.bind_ok] at e
  refine ⟨_, e, ⟨rfl, rfl, by simp, ?_, hk.length, by simp [hk.masses], hk.only⟩, ?_, rfl, rfl⟩
  · intro b
    refine ⟨?_, ?_⟩
    · simp only [List.getElem?_map]
      rw [List.getElem?_eq_getElem (by simp)]
      simp
    · obtain ⟨k, k1, k2, k3⟩ := hk.val b
      exact ⟨k, k1, k2, by simp only [List.getElem?_map, k3, Option.map_some]⟩
  · intro n hn b b' i j
    unfold PhonopyData.force
    simp only
    rw [hfind n hn b b' b.2 b'.2]
    rfl

end Verif.Proofs
