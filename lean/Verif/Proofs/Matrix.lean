import Verif.Model.Matrix
import Verif.Proofs.Mpi
import Mathlib.Tactic.Linarith
import Mathlib.Tactic.Ring
import Mathlib.Algebra.BigOperators.Group.List.Basic
import Mathlib.Data.List.Nodup
import Mathlib.Tactic.Set
import Mathlib.Tactic.Push
/-! Helper lemmas for the dense matrices. -/
namespace Verif.Model

/-! ## One-dimensional block-cyclic maps -/

/-- Owner of index `g`. -/
def own (nb P g : Nat) : Nat := g / nb % P
/-- Local position of index `g` on its owner. -/
def loc (nb P g : Nat) : Nat := nb * (g / (nb * P)) + g % nb
/-- Global index of local position `l` on process `p`. -/
def glo (nb P p l : Nat) : Nat := (l / nb * P + p) * nb + l % nb

theorem own_glo {nb P p l : Nat} (hb : 0 < nb) (hp : p < P) : own nb P (glo nb P p l) = p := by
  unfold own glo
  rw [Nat.add_comm, Nat.add_mul_div_right _ _ hb, Nat.div_eq_of_lt (Nat.mod_lt _ hb), Nat.zero_add,
    Nat.add_comm, Nat.add_mul_mod_self_right, Nat.mod_eq_of_lt hp]

theorem loc_glo {nb P p l : Nat} (hb : 0 < nb) (hp : p < P) : loc nb P (glo nb P p l) = l := by
  have h1 : glo nb P p l / nb = l / nb * P + p := by
    unfold glo
    rw [Nat.add_comm, Nat.add_mul_div_right _ _ hb, Nat.div_eq_of_lt (Nat.mod_lt _ hb), Nat.zero_add]
  have h2 : glo nb P p l % nb = l % nb := by
    unfold glo
    rw [Nat.add_comm, Nat.add_mul_mod_self_right, Nat.mod_mod]
  unfold loc
  rw [← Nat.div_div_eq_div_mul, h1, h2, Nat.add_comm (l / nb * P), Nat.add_mul_div_right _ _ (by omega),
    Nat.div_eq_of_lt hp, Nat.zero_add]
  exact Nat.div_add_mod l nb

theorem glo_own_loc {nb P g : Nat} (hb : 0 < nb) : glo nb P (own nb P g) (loc nb P g) = g := by
  have h1 : loc nb P g / nb = g / nb / P := by
    unfold loc
    rw [Nat.add_comm, Nat.add_mul_div_left _ _ hb, Nat.div_eq_of_lt (Nat.mod_lt _ hb), Nat.zero_add,
      Nat.div_div_eq_div_mul]
  have h2 : loc nb P g % nb = g % nb := by
    unfold loc
    rw [Nat.add_comm, Nat.add_mul_mod_self_left, Nat.mod_mod]
  unfold glo
  rw [h1, h2]
  unfold own
  rw [Nat.div_add_mod', Nat.div_add_mod']

theorem lt_numroc {n nb P p l : Nat} (hb : 0 < nb) (hp : p < P) :
    l < numroc n nb p P ↔ glo nb P p l < n := by
  have hP : 0 < P := by omega
  have key : ∀ {X Y x y m : Nat}, x < m → y < m → (X * m + x < Y * m + y ↔ (X < Y ∨ (X = Y ∧ x < y))) := by
    intro X Y x y m hx hy
    rcases Nat.lt_trichotomy X Y with h | h | h
    · have : (X + 1) * m ≤ Y * m := Nat.mul_le_mul_right m h
      have e : (X + 1) * m = X * m + m := by ring
      constructor
      · intro _; exact Or.inl h
      · intro _; omega
    · subst h; omega
    · have : (Y + 1) * m ≤ X * m := Nat.mul_le_mul_right m h
      have e : (Y + 1) * m = Y * m + m := by ring
      constructor
      · intro _; omega
      · rintro (h' | ⟨h', _⟩) <;> omega
  have hn : n = n / nb * nb + n % nb := (Nat.div_add_mod' n nb).symm
  have hB : n / nb = n / nb / P * P + n / nb % P := (Nat.div_add_mod' _ P).symm
  have hl : l = l / nb * nb + l % nb := (Nat.div_add_mod' l nb).symm
  have hx := Nat.mod_lt l hb
  have hr := Nat.mod_lt n hb
  have he := Nat.mod_lt (n / nb) hP
  have hglo : glo nb P p l < n ↔ (l / nb * P + p < n / nb ∨ (l / nb * P + p = n / nb ∧ l % nb < n % nb)) := by
    unfold glo
    conv_lhs => rw [hn]
    exact key hx hr
  have hblk : l / nb * P + p < n / nb ↔ (l / nb < n / nb / P ∨ (l / nb = n / nb / P ∧ p < n / nb % P)) := by
    conv_lhs => rw [hB]
    exact key hp he
  have hblk2 : l / nb * P + p = n / nb ↔ (l / nb = n / nb / P ∧ p = n / nb % P) := by
    constructor
    · intro h
      have a : n / nb / P = l / nb := by
        rw [← h, Nat.add_comm, Nat.add_mul_div_right _ _ hP, Nat.div_eq_of_lt hp, Nat.zero_add]
      have b : n / nb % P = p := by
        rw [← h, Nat.add_comm, Nat.add_mul_mod_self_right, Nat.mod_eq_of_lt hp]
      exact ⟨a.symm, b.symm⟩
    · rintro ⟨a, b⟩
      rw [a, b]; exact Nat.div_add_mod' _ P
  rw [hglo, hblk, hblk2]
  unfold numroc
  simp only
  set q := n / nb / P
  set a := l / nb
  set x := l % nb
  by_cases h1 : p < n / nb % P
  · rw [if_pos h1, hl]
    have e : q * nb + nb = (q + 1) * nb + 0 := by ring
    rw [e, key hx hb]
    constructor
    · rintro (h | ⟨_, h⟩) <;> omega
    · rintro ((h | h) | h) <;> omega
  · rw [if_neg h1]
    by_cases h2 : p = n / nb % P
    · rw [if_pos h2, hl, key hx hr]
      constructor
      · rintro (h | h)
        · exact Or.inl (Or.inl h)
        · exact Or.inr ⟨⟨h.1, h2⟩, h.2⟩
      · rintro ((h | h) | h)
        · exact Or.inl h
        · exact absurd h.2 h1
        · exact Or.inr ⟨h.1.1, h.2⟩
    · rw [if_neg h2, hl]
      have := key (X := a) (Y := q) hx hb
      rw [Nat.add_zero] at this
      rw [this]
      constructor
      · rintro (h | h) <;> omega
      · rintro ((h | h) | h)
        · exact Or.inl h
        · omega
        · omega

theorem loc_lt {n nb P g : Nat} (hb : 0 < nb) (hP : 0 < P) (hg : g < n) :
    loc nb P g < numroc n nb (own nb P g) P := by
  have hp : own nb P g < P := Nat.mod_lt _ hP
  rw [lt_numroc hb hp, glo_own_loc hb]; exact hg

theorem indxg2l_nat (g nb P : Nat) : indxg2l ((g : Int) + 1) nb P = (loc nb P g : Int) + 1 := by
  unfold indxg2l loc
  rw [Int.add_sub_cancel, ← Int.natCast_mul, ← Int.ofNat_tdiv, ← Int.ofNat_tmod]
  push_cast; rfl

theorem infog2lOwner_nat (g nb P : Nat) : infog2lOwner ((g : Int) + 1) nb P = (own nb P g : Int) := by
  unfold infog2lOwner own
  rw [Int.add_sub_cancel, ← Int.ofNat_tdiv, ← Int.ofNat_tmod]

/-- Layouts on which everything is defined. -/
structure Layout.Good (L : Layout) : Prop where
  br : 0 < L.blockSizeRows
  bc : 0 < L.blockSizeCols
  pr : 0 < L.numBlasRows
  pc : 0 < L.numBlasCols

theorem global2Local_val (L : Layout) (pr pc row col : Nat) :
    L.global2Local pr pc row col =
      if pr = own L.blockSizeRows L.numBlasRows row ∧ pc = own L.blockSizeCols L.numBlasCols col then
        ((loc L.blockSizeRows L.numBlasRows row + loc L.blockSizeCols L.numBlasCols col * L.lld pr : Nat) : Int)
      else -1 := by
  unfold Layout.global2Local
  simp only [infog2lOwner_nat, indxg2l_nat]
  by_cases h : pr = own L.blockSizeRows L.numBlasRows row ∧ pc = own L.blockSizeCols L.numBlasCols col
  · rw [if_neg (by omega), if_pos h]; push_cast; ring
  · rw [if_pos (by omega), if_neg h]

theorem local2Global_val (L : Layout) {pr pc i j : Nat} (hi : i < L.localRows pr) :
    L.local2Global pr pc (i + j * L.localRows pr) =
      (glo L.blockSizeRows L.numBlasRows pr i, glo L.blockSizeCols L.numBlasCols pc j) := by
  have hR : 0 < L.localRows pr := by omega
  have h1 : (i + j * L.localRows pr) / L.localRows pr = j := by
    rw [Nat.add_mul_div_right _ _ hR, Nat.div_eq_of_lt hi, Nat.zero_add]
  unfold Layout.local2Global
  simp only [h1, Nat.add_sub_cancel]
  rfl

theorem lld_val (L : Layout) {pr i : Nat} (hi : i < L.localRows pr) : L.lld pr = L.localRows pr := by
  unfold Layout.lld; split <;> omega

/-- Local element number `k` of process `(pr, pc)`. -/
theorem local_element (L : Layout) (hL : L.Good) {pr pc k : Nat} (hpr : pr < L.numBlasRows)
    (hpc : pc < L.numBlasCols) (hk : k < L.localElements pr pc) :
    (L.local2Global pr pc k).1 < L.numRows ∧ (L.local2Global pr pc k).2 < L.numCols ∧
    L.global2Local pr pc (L.local2Global pr pc k).1 (L.local2Global pr pc k).2 = k := by
  unfold Layout.localElements at hk
  have hR : 0 < L.localRows pr := by
    rcases Nat.eq_zero_or_pos (L.localRows pr) with h | h
    · rw [h, Nat.zero_mul] at hk; omega
    · exact h
  have hi : k % L.localRows pr < L.localRows pr := Nat.mod_lt _ hR
  have hj : k / L.localRows pr < L.localCols pc := by
    rw [Nat.div_lt_iff_lt_mul hR, Nat.mul_comm]; exact hk
  have e : k = k % L.localRows pr + k / L.localRows pr * L.localRows pr := by
    rw [Nat.add_comm]; exact (Nat.div_add_mod' _ _).symm
  generalize k % L.localRows pr = i at *
  generalize k / L.localRows pr = j at *
  subst e
  rw [local2Global_val L hi]
  refine ⟨(lt_numroc hL.br hpr).mp hi, (lt_numroc hL.bc hpc).mp hj, ?_⟩
  rw [global2Local_val, if_pos ⟨(own_glo hL.br hpr).symm, (own_glo hL.bc hpc).symm⟩,
    loc_glo hL.br hpr, loc_glo hL.bc hpc, lld_val L hi]

/-- Global element `(i, j)` on its owner. -/
theorem global_element (L : Layout) (hL : L.Good) {row col : Nat} (hr : row < L.numRows) (hc : col < L.numCols) :
    ∃ k, k < L.localElements (own L.blockSizeRows L.numBlasRows row) (own L.blockSizeCols L.numBlasCols col) ∧
      L.global2Local (own L.blockSizeRows L.numBlasRows row) (own L.blockSizeCols L.numBlasCols col) row col
        = (k : Int) ∧
      L.local2Global (own L.blockSizeRows L.numBlasRows row) (own L.blockSizeCols L.numBlasCols col) k
        = (row, col) := by
  have hi : loc L.blockSizeRows L.numBlasRows row < L.localRows (own L.blockSizeRows L.numBlasRows row) :=
    loc_lt hL.br hL.pr hr
  have hj : loc L.blockSizeCols L.numBlasCols col < L.localCols (own L.blockSizeCols L.numBlasCols col) :=
    loc_lt hL.bc hL.pc hc
  refine ⟨_, ?_, by rw [global2Local_val, if_pos ⟨rfl, rfl⟩], ?_⟩
  · rw [lld_val L hi]
    unfold Layout.localElements
    calc _ < L.localRows (own L.blockSizeRows L.numBlasRows row)
          + loc L.blockSizeCols L.numBlasCols col * L.localRows (own L.blockSizeRows L.numBlasRows row) := by omega
      _ = (loc L.blockSizeCols L.numBlasCols col + 1) * L.localRows (own L.blockSizeRows L.numBlasRows row) := by ring
      _ ≤ L.localCols (own L.blockSizeCols L.numBlasCols col) * L.localRows (own L.blockSizeRows L.numBlasRows row) :=
          Nat.mul_le_mul_right _ hj
      _ = _ := Nat.mul_comm _ _
  · rw [lld_val L hi, local2Global_val L hi, glo_own_loc hL.br, glo_own_loc hL.bc]

theorem global2Local_ne (L : Layout) {pr pc row col : Nat} :
    L.global2Local pr pc row col ≠ -1 ↔
      (pr = own L.blockSizeRows L.numBlasRows row ∧ pc = own L.blockSizeCols L.numBlasCols col) := by
  rw [global2Local_val]
  by_cases h : pr = own L.blockSizeRows L.numBlasRows row ∧ pc = own L.blockSizeCols L.numBlasCols col
  · rw [if_pos h]; exact ⟨fun _ => h, fun _ => by omega⟩
  · rw [if_neg h]; exact ⟨fun h' => absurd rfl h', fun h' => absurd h' h⟩

theorem blockSize_pos {n b : Nat} (hn : 0 < n) : 0 < blockSize n b := by
  unfold blockSize
  by_cases h : n % b = 0
  · have : n / b ≠ 0 := by
      intro h0
      have := Nat.div_add_mod n b
      rw [h0, h] at this; omega
    exact Nat.add_pos_left (Nat.pos_of_ne_zero this) _
  · rw [if_pos h]; exact Nat.succ_pos _

/-- The processes of the grid. -/
def Layout.procs (L : Layout) : List (Nat × Nat) :=
  (List.range L.numBlasRows).flatMap fun pr => (List.range L.numBlasCols).map fun pc => (pr, pc)

/-- The elements of the global matrix. -/
def Layout.elements (L : Layout) : List (Nat × Nat) :=
  (List.range L.numRows).flatMap fun i => (List.range L.numCols).map fun j => (i, j)

theorem mem_grid {a b : Nat} (p : Nat × Nat) :
    p ∈ ((List.range a).flatMap fun i => (List.range b).map fun j => (i, j)) ↔ p.1 < a ∧ p.2 < b := by
  obtain ⟨x, y⟩ := p
  simp [List.mem_flatMap]

theorem nodup_grid (a b : Nat) : ((List.range a).flatMap fun i => (List.range b).map fun j => (i, j)).Nodup := by
  rw [List.nodup_flatMap]
  refine ⟨?_, ?_⟩
  · intro i _
    exact List.nodup_range.map (fun x y h => by simpa using h)
  · apply List.nodup_range.imp
    intro i j hij p hp hp'
    simp only [List.mem_map] at hp hp'
    obtain ⟨_, _, rfl⟩ := hp
    obtain ⟨_, _, h⟩ := hp'
    injection h with h1 h2
    exact hij h1.symm

theorem local2Global_inj (L : Layout) (hL : L.Good) {pr pc : Nat} (hpr : pr < L.numBlasRows)
    (hpc : pc < L.numBlasCols) {k k' : Nat} (hk : k < L.localElements pr pc) (hk' : k' < L.localElements pr pc)
    (h : L.local2Global pr pc k = L.local2Global pr pc k') : k = k' := by
  have a := (local_element L hL hpr hpc hk).2.2
  have b := (local_element L hL hpr hpc hk').2.2
  rw [h, b] at a
  exact_mod_cast a.symm

theorem mem_localStates (L : Layout) (hL : L.Good) {pr pc : Nat} (hpr : pr < L.numBlasRows)
    (hpc : pc < L.numBlasCols) (e : Nat × Nat) :
    e ∈ L.getAllLocalStates pr pc ↔
      (e.1 < L.numRows ∧ e.2 < L.numCols ∧ L.global2Local pr pc e.1 e.2 ≠ -1) := by
  unfold Layout.getAllLocalStates
  rw [List.mem_map]
  constructor
  · rintro ⟨k, hk, rfl⟩
    have hk : k < L.localElements pr pc := by simpa using hk
    obtain ⟨h1, h2, h3⟩ := local_element L hL hpr hpc hk
    exact ⟨h1, h2, by rw [h3]; omega⟩
  · rintro ⟨h1, h2, h3⟩
    obtain ⟨rfl, rfl⟩ := (global2Local_ne L).mp h3
    obtain ⟨k, hk, _, he⟩ := global_element L hL h1 h2
    exact ⟨k, by simpa using hk, he⟩

theorem nodup_localStates (L : Layout) (hL : L.Good) {pr pc : Nat} (hpr : pr < L.numBlasRows)
    (hpc : pc < L.numBlasCols) : (L.getAllLocalStates pr pc).Nodup := by
  unfold Layout.getAllLocalStates
  rw [List.nodup_map_iff_inj_on List.nodup_range]
  intro a ha b hb h
  exact local2Global_inj L hL hpr hpc (by simpa using ha) (by simpa using hb) h

theorem states_perm (L : Layout) (hL : L.Good) :
    (L.procs.flatMap fun p => L.getAllLocalStates p.1 p.2).Perm L.elements := by
  unfold Layout.elements Layout.procs
  rw [List.perm_ext_iff_of_nodup _ (nodup_grid _ _)]
  · intro e
    rw [mem_grid, List.mem_flatMap]
    constructor
    · rintro ⟨p, hp, he⟩
      have hp := (mem_grid p).mp hp
      obtain ⟨h1, h2, _⟩ := (mem_localStates L hL hp.1 hp.2 e).mp he
      exact ⟨h1, h2⟩
    · rintro ⟨h1, h2⟩
      have o1 : own L.blockSizeRows L.numBlasRows e.1 < L.numBlasRows := Nat.mod_lt _ hL.pr
      have o2 : own L.blockSizeCols L.numBlasCols e.2 < L.numBlasCols := Nat.mod_lt _ hL.pc
      refine ⟨(own L.blockSizeRows L.numBlasRows e.1, own L.blockSizeCols L.numBlasCols e.2),
        (mem_grid _).mpr ⟨o1, o2⟩, ?_⟩
      exact (mem_localStates L hL o1 o2 e).mpr ⟨h1, h2, (global2Local_ne L).mpr ⟨rfl, rfl⟩⟩
  · rw [List.nodup_flatMap]
    refine ⟨?_, ?_⟩
    · intro p hp
      have hp := (mem_grid p).mp hp
      exact nodup_localStates L hL hp.1 hp.2
    · refine List.Pairwise.imp_of_mem ?_ (nodup_grid _ _)
      intro p q hp hq hpq e he he'
      have hp := (mem_grid p).mp hp
      have hq := (mem_grid q).mp hq
      have a := (global2Local_ne L).mp ((mem_localStates L hL hp.1 hp.2 e).mp he).2.2
      have b := (global2Local_ne L).mp ((mem_localStates L hL hq.1 hq.2 e).mp he').2.2
      exact hpq (Prod.ext (a.1.trans b.1.symm) (a.2.trans b.2.symm))

/-! ## Access to elements -/

/-- The value of element `(i, j)` on the process that stores it. -/
def Layout.value [Zero α] (L : Layout) (m : DistData α) (i j : Nat) : α :=
  L.get m (own L.blockSizeRows L.numBlasRows i) (own L.blockSizeCols L.numBlasCols j) i j

theorem get_nonowner [Zero α] (L : Layout) (m : DistData α) {pr pc i j : Nat}
    (h : ¬ (pr = own L.blockSizeRows L.numBlasRows i ∧ pc = own L.blockSizeCols L.numBlasCols j)) :
    L.get m pr pc i j = 0 := by
  unfold Layout.get
  simp only
  rw [if_pos]
  by_contra hc
  exact h ((global2Local_ne L).mp hc)

theorem set_nonowner (L : Layout) (m : DistData α) {pr pc i j : Nat} (v : α)
    (h : ¬ (pr = own L.blockSizeRows L.numBlasRows i ∧ pc = own L.blockSizeCols L.numBlasCols j)) :
    L.set m pr pc i j v = m := by
  unfold Layout.set
  simp only
  rw [if_pos]
  by_contra hc
  exact h ((global2Local_ne L).mp hc)

theorem sum_single [AddMonoid α] {β : Type} [DecidableEq β] (l : List β) (hl : l.Nodup) (b : β) (hb : b ∈ l) (f : β → α)
    (hf : ∀ a ∈ l, a ≠ b → f a = 0) : (l.map f).sum = f b := by
  induction l with
  | nil => simp at hb
  | cons a t ih =>
    rw [List.nodup_cons] at hl
    rw [List.map_cons, List.sum_cons]
    by_cases hab : a = b
    · subst hab
      have : (t.map f).sum = 0 := by
        apply List.sum_eq_zero
        intro x hx
        obtain ⟨c, hc, rfl⟩ := List.mem_map.mp hx
        exact hf c (by simp [hc]) (fun h => hl.1 (h ▸ hc))
      rw [this, add_zero]
    · rw [hf a (by simp) hab, zero_add]
      refine ih hl.2 ?_ (fun c hc => hf c (by simp [hc]))
      rcases List.mem_cons.mp hb with h | h
      · exact absurd h.symm hab
      · exact h

theorem sum_get [AddMonoid α] (L : Layout) (hL : L.Good) (m : DistData α) (i j : Nat) :
    (L.procs.map fun p => L.get m p.1 p.2 i j).sum = L.value m i j := by
  have := sum_single L.procs (nodup_grid _ _)
    (own L.blockSizeRows L.numBlasRows i, own L.blockSizeCols L.numBlasCols j)
    ((mem_grid _).mpr ⟨Nat.mod_lt _ hL.pr, Nat.mod_lt _ hL.pc⟩) (fun p => L.get m p.1 p.2 i j) (by
      intro p _ hp
      apply get_nonowner
      rintro ⟨h1, h2⟩
      exact hp (Prod.ext h1 h2))
  exact this

theorem get_set [Zero α] (L : Layout) (hL : L.Good) (m : DistData α) {i j i' j' : Nat}
    (hi : i < L.numRows) (hj : j < L.numCols) (hi' : i' < L.numRows) (hj' : j' < L.numCols)
    (pr pc pr' pc' : Nat) (v : α) :
    L.get (L.set m pr pc i j v) pr' pc' i' j' =
      if (pr' = pr ∧ pc' = pc ∧ i' = i ∧ j' = j) ∧
          (pr = own L.blockSizeRows L.numBlasRows i ∧ pc = own L.blockSizeCols L.numBlasCols j) then v
      else L.get m pr' pc' i' j' := by
  by_cases ho : pr = own L.blockSizeRows L.numBlasRows i ∧ pc = own L.blockSizeCols L.numBlasCols j
  · obtain ⟨h1, h2⟩ := ho
    by_cases ho' : pr' = own L.blockSizeRows L.numBlasRows i' ∧ pc' = own L.blockSizeCols L.numBlasCols j'
    · obtain ⟨h1', h2'⟩ := ho'
      obtain ⟨k, hk, hg, hl⟩ := global_element L hL hi hj
      obtain ⟨k', hk', hg', hl'⟩ := global_element L hL hi' hj'
      rw [← h1, ← h2] at hg hl
      rw [← h1', ← h2'] at hg' hl'
      unfold Layout.get Layout.set
      simp only [hg, hg', Int.toNat_natCast]
      rw [if_neg (by omega), if_neg (by omega)]
      by_cases he : pr' = pr ∧ pc' = pc ∧ i' = i ∧ j' = j
      · obtain ⟨e1, e2, e3, e4⟩ := he
        subst e3 e4 e1 e2
        rw [hg] at hg'
        have : k = k' := by exact_mod_cast hg'
        subst this
        simp [h1, h2]
      · have hne : ¬ (pr' = pr ∧ pc' = pc ∧ k' = k) := by
          rintro ⟨e1, e2, e3⟩
          subst e1 e2 e3
          rw [hl] at hl'
          injection hl' with a b
          exact he ⟨rfl, rfl, a.symm, b.symm⟩
        rw [if_neg hne, if_neg (fun h => he h.1), if_neg (by omega)]
    · rw [get_nonowner L _ ho', get_nonowner L _ ho', if_neg]
      rintro ⟨⟨e1, e2, e3, e4⟩, _⟩
      subst e1 e2 e3 e4
      exact ho' ⟨h1, h2⟩
  · rw [set_nonowner L m v ho, if_neg (fun h => ho h.2)]

theorem value_addTo [AddMonoid α] (L : Layout) (hL : L.Good) (m : DistData α) {i j i' j' : Nat}
    (hi : i < L.numRows) (hj : j < L.numCols) (hi' : i' < L.numRows) (hj' : j' < L.numCols)
    (pr pc : Nat) (v : α) :
    L.value (L.addTo m pr pc i j v) i' j' = L.value m i' j' +
      if i = i' ∧ j = j' ∧ pr = own L.blockSizeRows L.numBlasRows i ∧ pc = own L.blockSizeCols L.numBlasCols j
      then v else 0 := by
  unfold Layout.value Layout.addTo
  rw [get_set L hL m hi hj hi' hj']
  by_cases h : i = i' ∧ j = j' ∧ pr = own L.blockSizeRows L.numBlasRows i ∧ pc = own L.blockSizeCols L.numBlasCols j
  · obtain ⟨rfl, rfl, rfl, rfl⟩ := h
    simp
  · rw [if_neg h, add_zero, if_neg]
    rintro ⟨⟨_, _, e3, e4⟩, e5, e6⟩
    exact h ⟨e3.symm, e4.symm, e5, e6⟩

theorem foldl_add_eq [AddMonoid α] (l : List α) (a : α) : l.foldl (· + ·) a = a + l.sum := by
  induction l generalizing a with
  | nil => simp
  | cons x t ih => rw [List.foldl_cons, ih, List.sum_cons, add_assoc]

/-! ## Serial matrix -/

/-- The buffer has the right size. -/
def SMat.WF (m : SMat α) : Prop := m.mat.length = m.numRows * m.numCols

theorem sidx_lt {r c i j : Nat} (hi : i < r) (hj : j < c) : r * j + i < r * c := by
  calc r * j + i < r * j + r := by omega
    _ = r * (j + 1) := by ring
    _ ≤ r * c := Nat.mul_le_mul_left r hj

theorem sidx_inj {r i j i' j' : Nat} (hi : i < r) (hi' : i' < r) (h : r * j + i = r * j' + i') :
    i = i' ∧ j = j' := by
  have hr : 0 < r := by omega
  have a : (r * j + i) / r = j := by
    rw [Nat.add_comm, Nat.add_mul_div_left _ _ hr, Nat.div_eq_of_lt hi, Nat.zero_add]
  have b : (r * j' + i') / r = j' := by
    rw [Nat.add_comm, Nat.add_mul_div_left _ _ hr, Nat.div_eq_of_lt hi', Nat.zero_add]
  rw [h, b] at a
  subst a
  exact ⟨by omega, rfl⟩

theorem sget_val (m : SMat α) (hw : m.WF) {i j : Nat} (hi : i < m.numRows) (hj : j < m.numCols) :
    ∃ h : m.numRows * j + i < m.mat.length, m.get i j = .ok m.mat[m.numRows * j + i] := by
  have hlt : m.numRows * j + i < m.mat.length := by rw [hw]; exact sidx_lt hi hj
  refine ⟨hlt, ?_⟩
  unfold SMat.get
  rw [if_neg (by omega)]
  have : (m.global2Local i j).toNat = m.numRows * j + i := by
    unfold SMat.global2Local; omega
  rw [this, List.getElem?_eq_getElem hlt]

theorem sset_val (m : SMat α) (hw : m.WF) {i j : Nat} (hi : i < m.numRows) (hj : j < m.numCols) (v : α) :
    m.set i j v = .ok { m with mat := m.mat.set (m.numRows * j + i) v } := by
  have hlt : m.numRows * j + i < m.mat.length := by rw [hw]; exact sidx_lt hi hj
  unfold SMat.set
  rw [if_neg (by omega)]
  have : (m.global2Local i j).toNat = m.numRows * j + i := by
    unfold SMat.global2Local; omega
  rw [this, if_pos hlt]

/-- Writing in range succeeds, keeps the shape, and reads back. -/
theorem sset_spec (m : SMat α) (hw : m.WF) {i j : Nat} (hi : i < m.numRows) (hj : j < m.numCols) (v : α) :
    ∃ m', m.set i j v = .ok m' ∧ m'.numRows = m.numRows ∧ m'.numCols = m.numCols ∧ m'.WF ∧
      ∀ i' j', i' < m.numRows → j' < m.numCols →
        m'.get i' j' = if i' = i ∧ j' = j then .ok v else m.get i' j' := by
  refine ⟨_, sset_val m hw hi hj v, rfl, rfl, ?_, ?_⟩
  · unfold SMat.WF at *; simpa using hw
  · intro i' j' hi' hj'
    have hw' : ({ m with mat := m.mat.set (m.numRows * j + i) v } : SMat α).WF := by
      unfold SMat.WF at *; simpa using hw
    obtain ⟨h1, e1⟩ := sget_val _ hw' (i := i') (j := j') hi' hj'
    obtain ⟨h2, e2⟩ := sget_val m hw hi' hj'
    rw [e1, e2]
    simp only [List.getElem_set]
    by_cases h : i' = i ∧ j' = j
    · obtain ⟨rfl, rfl⟩ := h; simp
    · rw [if_neg h, if_neg]
      intro he
      obtain ⟨a, b⟩ := sidx_inj hi hi' he
      exact h ⟨a.symm, b.symm⟩

end Verif.Model
