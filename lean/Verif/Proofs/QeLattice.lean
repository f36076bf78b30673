import Verif.Model.QeLattice
import Verif.Spec.QeLattice
import Mathlib.Tactic.Ring
import Mathlib.Tactic.Linarith
import Mathlib.Tactic.Positivity
import Mathlib.Tactic.FinCases
import Mathlib.Tactic.NormNum
import Mathlib.Tactic.FieldSimp

namespace Verif.Proofs
open Verif.Model Verif.Spec

/-! ## Centred lattices as integer combinations -/

theorem span_eq_centred (t : Centring) (u v w A B C : CellVec) (f : Int → Int → Int → Int × Int × Int)
    (h1 : ∀ i j k, t.holds (f i j k).1 (f i j k).2.1 (f i j k).2.2)
    (h2 : ∀ (i j k : Int) (m : Fin 3), (i : ℝ) * u m + j * v m + k * w m =
      ((f i j k).1 * A m + (f i j k).2.1 * B m + (f i j k).2.2 * C m) / 2)
    (h3 : ∀ p q r, t.holds p q r → ∃ i j k, f i j k = (p, q, r)) :
    spanOf u v w = centredLattice t A B C := by
  ext x
  constructor
  · rintro ⟨i, j, k, rfl⟩
    exact ⟨_, _, _, h1 i j k, funext fun m => h2 i j k m⟩
  · rintro ⟨p, q, r, hc, rfl⟩
    obtain ⟨i, j, k, hf⟩ := h3 p q r hc
    refine ⟨i, j, k, funext fun m => ?_⟩
    rw [h2 i j k m, hf]

theorem span_P (A B C : CellVec) : spanOf A B C = centredLattice .P A B C := by
  apply span_eq_centred .P A B C A B C (fun i j k => (2 * i, 2 * j, 2 * k))
  · intro i j k
    simp only [Centring.holds]
    omega
  · intro i j k m
    push_cast
    ring
  · intro p q r h
    simp only [Centring.holds] at h
    refine ⟨p / 2, q / 2, r / 2, ?_⟩
    ext <;> simp only <;> omega

theorem span_F2 (A B C u v w : CellVec) (hu : ∀ m, u m = (-A m + C m) / 2) (hv : ∀ m, v m = (B m + C m) / 2)
    (hw : ∀ m, w m = (-A m + B m) / 2) : spanOf u v w = centredLattice .F A B C := by
  apply span_eq_centred .F u v w A B C (fun i j k => (-(i + k), j + k, i + j))
  · intro i j k
    simp only [Centring.holds]
    omega
  · intro i j k m
    rw [hu, hv, hw]
    push_cast
    ring
  · intro p q r h
    simp only [Centring.holds] at h
    refine ⟨r - (p + q + r) / 2, (p + q + r) / 2, q - (p + q + r) / 2, ?_⟩
    ext <;> simp only <;> omega

theorem span_F10 (A B C u v w : CellVec) (hu : ∀ m, u m = (A m + C m) / 2) (hv : ∀ m, v m = (A m + B m) / 2)
    (hw : ∀ m, w m = (B m + C m) / 2) : spanOf u v w = centredLattice .F A B C := by
  apply span_eq_centred .F u v w A B C (fun i j k => (i + j, j + k, i + k))
  · intro i j k
    simp only [Centring.holds]
    omega
  · intro i j k m
    rw [hu, hv, hw]
    push_cast
    ring
  · intro p q r h
    simp only [Centring.holds] at h
    refine ⟨(p + q + r) / 2 - q, (p + q + r) / 2 - r, (p + q + r) / 2 - p, ?_⟩
    ext <;> simp only <;> omega

theorem span_I3 (A B C u v w : CellVec) (hu : ∀ m, u m = (A m + B m + C m) / 2) (hv : ∀ m, v m = (-A m + B m + C m) / 2)
    (hw : ∀ m, w m = (-A m - B m + C m) / 2) : spanOf u v w = centredLattice .I A B C := by
  apply span_eq_centred .I u v w A B C (fun i j k => (i - j - k, i + j - k, i + j + k))
  · intro i j k
    simp only [Centring.holds]
    omega
  · intro i j k m
    rw [hu, hv, hw]
    push_cast
    ring
  · intro p q r h
    simp only [Centring.holds] at h
    refine ⟨(p + r) / 2, (q - p) / 2, (r - q) / 2, ?_⟩
    ext <;> simp only <;> omega

theorem span_I3' (A B C u v w : CellVec) (hu : ∀ m, u m = (-A m + B m + C m) / 2) (hv : ∀ m, v m = (A m - B m + C m) / 2)
    (hw : ∀ m, w m = (A m + B m - C m) / 2) : spanOf u v w = centredLattice .I A B C := by
  apply span_eq_centred .I u v w A B C (fun i j k => (-i + j + k, i - j + k, i + j - k))
  · intro i j k
    simp only [Centring.holds]
    omega
  · intro i j k m
    rw [hu, hv, hw]
    push_cast
    ring
  · intro p q r h
    simp only [Centring.holds] at h
    refine ⟨(q + r) / 2, (p + r) / 2, (p + q) / 2, ?_⟩
    ext <;> simp only <;> omega

theorem span_I7 (A B C u v w : CellVec) (hu : ∀ m, u m = (A m - B m + C m) / 2) (hv : ∀ m, v m = (A m + B m + C m) / 2)
    (hw : ∀ m, w m = (-A m - B m + C m) / 2) : spanOf u v w = centredLattice .I A B C := by
  apply span_eq_centred .I u v w A B C (fun i j k => (i + j - k, -i + j - k, i + j + k))
  · intro i j k
    simp only [Centring.holds]
    omega
  · intro i j k m
    rw [hu, hv, hw]
    push_cast
    ring
  · intro p q r h
    simp only [Centring.holds] at h
    refine ⟨(p - q) / 2, (q + r) / 2, (r - p) / 2, ?_⟩
    ext <;> simp only <;> omega

theorem span_C9 (A B C u v w : CellVec) (hu : ∀ m, u m = (A m + B m) / 2) (hv : ∀ m, v m = (-A m + B m) / 2)
    (hw : ∀ m, w m = C m) : spanOf u v w = centredLattice .C A B C := by
  apply span_eq_centred .C u v w A B C (fun i j k => (i - j, i + j, 2 * k))
  · intro i j k
    simp only [Centring.holds]
    omega
  · intro i j k m
    rw [hu, hv, hw]
    push_cast
    ring
  · intro p q r h
    simp only [Centring.holds] at h
    refine ⟨(p + q) / 2, (q - p) / 2, r / 2, ?_⟩
    ext <;> simp only <;> omega

theorem span_C9' (A B C u v w : CellVec) (hu : ∀ m, u m = (A m - B m) / 2) (hv : ∀ m, v m = (A m + B m) / 2)
    (hw : ∀ m, w m = C m) : spanOf u v w = centredLattice .C A B C := by
  apply span_eq_centred .C u v w A B C (fun i j k => (i + j, j - i, 2 * k))
  · intro i j k
    simp only [Centring.holds]
    omega
  · intro i j k m
    rw [hu, hv, hw]
    push_cast
    ring
  · intro p q r h
    simp only [Centring.holds] at h
    refine ⟨(p - q) / 2, (p + q) / 2, r / 2, ?_⟩
    ext <;> simp only <;> omega

theorem span_A91 (A B C u v w : CellVec) (hu : ∀ m, u m = A m) (hv : ∀ m, v m = (B m - C m) / 2)
    (hw : ∀ m, w m = (B m + C m) / 2) : spanOf u v w = centredLattice .A A B C := by
  apply span_eq_centred .A u v w A B C (fun i j k => (2 * i, j + k, k - j))
  · intro i j k
    simp only [Centring.holds]
    omega
  · intro i j k m
    rw [hu, hv, hw]
    push_cast
    ring
  · intro p q r h
    simp only [Centring.holds] at h
    refine ⟨p / 2, (q - r) / 2, (q + r) / 2, ?_⟩
    ext <;> simp only <;> omega

/-! ## Shapes -/

theorem hasShape_mono {tol tol' : ℝ} {cell : ConvCell} {A B C : CellVec} (h : HasShape tol cell A B C) (ht : tol ≤ tol') :
    HasShape tol' cell A B C :=
  ⟨h.aa.trans ht, h.bb.trans ht, h.cc.trans ht, h.bc.trans ht, h.ac.trans ht, h.ab.trans ht⟩

theorem isPrimitive_mono {tol tol' : ℝ} {cell : ConvCell} {t : Centring} {u v w : CellVec} (h : IsPrimitive tol cell t u v w)
    (ht : tol ≤ tol') : IsPrimitive tol' cell t u v w := by
  obtain ⟨h1, A, B, C, h2, h3, h4⟩ := h
  exact ⟨h1, A, B, C, hasShape_mono h2 ht, h3, h4⟩

theorem hasShape_exact {cell : ConvCell} {A B C : CellVec} (aa : dot3 A A = cell.a * cell.a) (bb : dot3 B B = cell.b * cell.b)
    (cc : dot3 C C = cell.c * cell.c) (bc : dot3 B C = cell.b * cell.c * cell.cosBC) (ac : dot3 A C = cell.a * cell.c * cell.cosAC)
    (ab : dot3 A B = cell.a * cell.b * cell.cosAB) : HasShape 0 cell A B C := by
  constructor <;> simp [*]

/-- Three orthogonal axes. -/
theorem ortho_shape (a b c : ℝ) : HasShape 0 ⟨a, b, c, 0, 0, 0⟩ ![a, 0, 0] ![0, b, 0] ![0, 0, c] := by
  apply hasShape_exact <;> simp [dot3]

theorem ortho_triple (a b c : ℝ) : triple ![a, 0, 0] ![0, b, 0] ![0, 0, c] = a * b * c := by
  simp [triple]
  ring

theorem ortho_primitive (a b c : ℝ) (t : Centring) (u v w : CellVec) (ha : 0 < a) (hb : 0 < b) (hc : 0 < c) (ht : 0 < triple u v w)
    (hs : spanOf u v w = centredLattice t ![a, 0, 0] ![0, b, 0] ![0, 0, c]) : IsPrimitive 0 ⟨a, b, c, 0, 0, 0⟩ t u v w :=
  ⟨ht, _, _, _, ortho_shape a b c, by rw [ortho_triple]; positivity, hs⟩

/-! ## The indices with orthogonal axes -/

section
variable {a b c : ℝ} (ha : 0 < a) (hb : 0 < b) (hc : 0 < c)
include ha hb hc

theorem prim_P : IsPrimitive 0 ⟨a, b, c, 0, 0, 0⟩ .P ![a, 0, 0] ![0, b, 0] ![0, 0, c] :=
  ortho_primitive a b c .P _ _ _ ha hb hc (by rw [ortho_triple]; positivity) (span_P _ _ _)

theorem prim_F2 : IsPrimitive 0 ⟨a, b, c, 0, 0, 0⟩ .F ![-(a / 2), 0, c / 2] ![0, b / 2, c / 2] ![-(a / 2), b / 2, 0] := by
  apply ortho_primitive a b c .F _ _ _ ha hb hc
  · have : triple ![-(a / 2), 0, c / 2] ![0, b / 2, c / 2] ![-(a / 2), b / 2, 0] = a * b * c / 4 := by
      simp [triple]; ring
    rw [this]; positivity
  · apply span_F2 <;> intro m <;> fin_cases m <;> simp <;> ring

theorem prim_F10 : IsPrimitive 0 ⟨a, b, c, 0, 0, 0⟩ .F ![a / 2, 0, c / 2] ![a / 2, b / 2, 0] ![0, b / 2, c / 2] := by
  apply ortho_primitive a b c .F _ _ _ ha hb hc
  · have : triple ![a / 2, 0, c / 2] ![a / 2, b / 2, 0] ![0, b / 2, c / 2] = a * b * c / 4 := by
      simp [triple]; ring
    rw [this]; positivity
  · apply span_F10 <;> intro m <;> fin_cases m <;> simp

theorem prim_I3 : IsPrimitive 0 ⟨a, b, c, 0, 0, 0⟩ .I ![a / 2, b / 2, c / 2] ![-(a / 2), b / 2, c / 2] ![-(a / 2), -(b / 2), c / 2] := by
  apply ortho_primitive a b c .I _ _ _ ha hb hc
  · have : triple ![a / 2, b / 2, c / 2] ![-(a / 2), b / 2, c / 2] ![-(a / 2), -(b / 2), c / 2] = a * b * c / 2 := by
      simp [triple]; ring
    rw [this]; positivity
  · apply span_I3 <;> intro m <;> fin_cases m <;> simp <;> ring

theorem prim_I3' : IsPrimitive 0 ⟨a, b, c, 0, 0, 0⟩ .I ![-(a / 2), b / 2, c / 2] ![a / 2, -(b / 2), c / 2] ![a / 2, b / 2, -(c / 2)] := by
  apply ortho_primitive a b c .I _ _ _ ha hb hc
  · have : triple ![-(a / 2), b / 2, c / 2] ![a / 2, -(b / 2), c / 2] ![a / 2, b / 2, -(c / 2)] = a * b * c / 2 := by
      simp [triple]; ring
    rw [this]; positivity
  · apply span_I3' <;> intro m <;> fin_cases m <;> simp <;> ring

theorem prim_I7 : IsPrimitive 0 ⟨a, b, c, 0, 0, 0⟩ .I ![a / 2, -(b / 2), c / 2] ![a / 2, b / 2, c / 2] ![-(a / 2), -(b / 2), c / 2] := by
  apply ortho_primitive a b c .I _ _ _ ha hb hc
  · have : triple ![a / 2, -(b / 2), c / 2] ![a / 2, b / 2, c / 2] ![-(a / 2), -(b / 2), c / 2] = a * b * c / 2 := by
      simp [triple]; ring
    rw [this]; positivity
  · apply span_I7 <;> intro m <;> fin_cases m <;> simp <;> ring

theorem prim_C9 : IsPrimitive 0 ⟨a, b, c, 0, 0, 0⟩ .C ![a / 2, b / 2, 0] ![-(a / 2), b / 2, 0] ![0, 0, c] := by
  apply ortho_primitive a b c .C _ _ _ ha hb hc
  · have : triple ![a / 2, b / 2, 0] ![-(a / 2), b / 2, 0] ![0, 0, c] = a * b * c / 2 := by
      simp [triple]; ring
    rw [this]; positivity
  · apply span_C9 <;> intro m <;> fin_cases m <;> simp <;> ring

theorem prim_C9' : IsPrimitive 0 ⟨a, b, c, 0, 0, 0⟩ .C ![a / 2, -(b / 2), 0] ![a / 2, b / 2, 0] ![0, 0, c] := by
  apply ortho_primitive a b c .C _ _ _ ha hb hc
  · have : triple ![a / 2, -(b / 2), 0] ![a / 2, b / 2, 0] ![0, 0, c] = a * b * c / 2 := by
      simp [triple]; ring
    rw [this]; positivity
  · apply span_C9' <;> intro m <;> fin_cases m <;> simp <;> ring

theorem prim_A91 : IsPrimitive 0 ⟨a, b, c, 0, 0, 0⟩ .A ![a, 0, 0] ![0, b / 2, -(c / 2)] ![0, b / 2, c / 2] := by
  apply ortho_primitive a b c .A _ _ _ ha hb hc
  · have : triple ![a, 0, 0] ![0, b / 2, -(c / 2)] ![0, b / 2, c / 2] = a * b * c / 2 := by
      simp [triple]; ring
    rw [this]; positivity
  · apply span_A91 <;> intro m <;> fin_cases m <;> simp <;> ring

end

end Verif.Proofs
