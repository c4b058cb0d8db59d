import Verif.Spec.Local
import Verif.Model.Surface
import Verif.Model.Double

/-! # C97 in any arithmetic -/

set_option linter.unusedSectionVars false

namespace Nurbs.Spec

/-- Entry `i` of a list, if there is one. -/
def entry {α : Type} (l : List α) (i : Int) : Option α := if i < 0 then none else l[i.toNat]?

end Nurbs.Spec

namespace Nurbs

open Spec

theorem vget_entry {α : Type} {l l' : List α} {i i' : Int} (h : entry l i = entry l' i') : vget l i = vget l' i' := by
  have key : ∀ (l : List α) (i : Int), vget l i = match entry l i with | some a => .ok a | none => .error .ub := by
    intro l i
    unfold vget entry
    by_cases h0 : i < 0
    · rw [dif_neg (by omega), if_pos h0]
    · rw [if_neg h0]
      by_cases h1 : i.toNat < l.length
      · rw [dif_pos ⟨by omega, h1⟩, List.getElem?_eq_getElem h1]
      · rw [dif_neg (by omega), List.getElem?_eq_none (by omega)]
  rw [key, key, h]

theorem forUp_cong {σ : Type} {f g : Int → σ → M σ} (n : ℕ) : ∀ (lo : Int), (∀ i, lo ≤ i → i < lo + n → f i = g i) → ∀ s, forUp lo n f s = forUp lo n g s := by
  induction n with
  | zero => intro _ _ _; rfl
  | succ n ih =>
    intro lo h s
    simp only [forUp]
    rw [h lo le_rfl (by push_cast; omega)]
    congr 1
    funext s'
    exact ih (lo + 1) (fun i h1 h2 => h i (by omega) (by push_cast; omega)) s'

theorem forLe_cong {σ : Type} {f g : Int → σ → M σ} {lo hi : Int} (h : ∀ i, lo ≤ i → i ≤ hi → f i = g i) (s : σ) : forLe lo hi f s = forLe lo hi g s :=
  forUp_cong _ _ (fun i h1 h2 => h i h1 (by omega)) s

section
variable {K : Type} [Zero K] [One K] [Add K] [Sub K] [Mul K] [Div K] [Neg K] [NatCast K] [IntCast K] [LinearOrder K]

theorem basis_cong {d : Int} {l l' : List K} {k k' : Int} (h : ∀ i, 1 ≤ i → i ≤ d → entry l (k + i) = entry l' (k' + i) ∧ entry l (k + 1 - i) = entry l' (k' + 1 - i))
    (x : K) : BSplineBasis.EvaluateAt d l k x = BSplineBasis.EvaluateAt d l' k' x ∧
    ∀ order, BSplineBasis.EvaluateAllAt d l k x order = BSplineBasis.EvaluateAllAt d l' k' x order := by
  constructor
  · unfold BSplineBasis.EvaluateAt
    have : ∀ s, forLe 1 d (BSplineBasis.evalOuter l k x) s = forLe 1 d (BSplineBasis.evalOuter l' k' x) s := forLe_cong fun i h1 h2 => by
      funext s
      obtain ⟨a, b, c⟩ := s
      simp only [BSplineBasis.evalOuter]
      rw [vget_entry (h i h1 h2).1, vget_entry (h i h1 h2).2]
    simp only [this]
  · intro order
    unfold BSplineBasis.EvaluateAllAt
    have : ∀ s, forLe 1 d (BSplineBasis.nduOuter l k x) s = forLe 1 d (BSplineBasis.nduOuter l' k' x) s := forLe_cong fun i h1 h2 => by
      funext s
      obtain ⟨a, b, c⟩ := s
      simp only [BSplineBasis.nduOuter]
      rw [vget_entry (h i h1 h2).1, vget_entry (h i h1 h2).2]
    simp only [this]

namespace Props

/-- C97 (any arithmetic).  Whatever `+`, `-`, `*`, `/` do and for whatever objects, well-formed or not: the outcome of `Curve::Evaluate` and
`Curve::EvaluateAll` (a value, an assertion, …) depends on nothing but the `2p` knots and `p + 1` control points around the span that
`FindSpanIndex` finds. -/
theorem C97_any_curve {c c' : Curve K} (hd : c'.Degree = c.Degree) {x : K} {k k' : Int} (hk : c.Knots.FindSpanIndex c.Degree x = .ok k)
    (hk' : c'.Knots.FindSpanIndex c.Degree x = .ok k')
    (hu : ∀ i, 1 ≤ i → i ≤ c.Degree → entry c.Knots.Values (k + i) = entry c'.Knots.Values (k' + i) ∧
      entry c.Knots.Values (k + 1 - i) = entry c'.Knots.Values (k' + 1 - i))
    (hP : ∀ i, 0 ≤ i → i ≤ c.Degree → entry c.ControlPoints (k - c.Degree + i) = entry c'.ControlPoints (k' - c.Degree + i)) :
    c.Evaluate x = c'.Evaluate x ∧ ∀ order, c.EvaluateAll x order = c'.EvaluateAll x order := by
  obtain ⟨b1, b2⟩ := basis_cong hu x
  constructor
  · unfold Curve.Evaluate
    rw [hd, hk, hk']
    simp only [bind, Except.bind]
    rw [b1]
    congr 1
    funext _
    congr 1
    funext basis
    congr 1
    funext _
    rw [forLe_cong fun i h1 h2 => ?_]
    funext s
    simp only [vget_entry (hP i h1 h2)]
  · intro order
    have : c.HomogeneousDerivative x order = c'.HomogeneousDerivative x order := by
      unfold Curve.HomogeneousDerivative
      rw [hd, hk, hk']
      simp only [bind, Except.bind]
      rw [b2 order]
      congr 1
      funext _
      congr 1
      funext basis
      congr 1
      funext _
      congr 1
      funext _
      congr 1
      funext r
      refine forLe_cong (fun a _ _ => ?_) _
      funext s
      rw [forLe_cong fun i h1 h2 => ?_]
      funext t
      simp only [vget_entry (hP i h1 h2)]
    unfold Curve.EvaluateAll
    rw [this]

/-- C97 (any arithmetic, surfaces). -/
theorem C97_any_surface {s s' : Surface K} (hdu : s'.DegreeU = s.DegreeU) (hdv : s'.DegreeV = s.DegreeV) {u v : K} {k k' l l' : Int}
    (hk : s.KnotsU.FindSpanIndex s.DegreeU u = .ok k) (hk' : s'.KnotsU.FindSpanIndex s.DegreeU u = .ok k')
    (hl : s.KnotsV.FindSpanIndex s.DegreeV v = .ok l) (hl' : s'.KnotsV.FindSpanIndex s.DegreeV v = .ok l')
    (hU : ∀ i, 1 ≤ i → i ≤ s.DegreeU → entry s.KnotsU.Values (k + i) = entry s'.KnotsU.Values (k' + i) ∧
      entry s.KnotsU.Values (k + 1 - i) = entry s'.KnotsU.Values (k' + 1 - i))
    (hV : ∀ i, 1 ≤ i → i ≤ s.DegreeV → entry s.KnotsV.Values (l + i) = entry s'.KnotsV.Values (l' + i) ∧
      entry s.KnotsV.Values (l + 1 - i) = entry s'.KnotsV.Values (l' + 1 - i))
    (hP : ∀ i j, 0 ≤ i → i ≤ s.DegreeU → 0 ≤ j → j ≤ s.DegreeV →
      s.ControlPoints.Get (k - s.DegreeU + i) (l - s.DegreeV + j) = s'.ControlPoints.Get (k' - s.DegreeU + i) (l' - s.DegreeV + j)) :
    s.Evaluate u v = s'.Evaluate u v ∧ ∀ ou ov, s.EvaluateAll u v ou ov = s'.EvaluateAll u v ou ov := by
  obtain ⟨b1, b2⟩ := basis_cong hU u
  obtain ⟨b3, b4⟩ := basis_cong hV v
  constructor
  · unfold Surface.Evaluate
    rw [hdu, hdv, hk, hk', hl, hl']
    simp only [bind, Except.bind]
    rw [b1, b3]
    congr 1
    funext _
    congr 1
    funext _
    congr 1
    funext bu
    congr 1
    funext bv
    congr 1
    funext _
    congr 1
    funext _
    rw [forLe_cong fun j h3 h4 => ?_]
    funext t
    rw [forLe_cong fun i h1 h2 => ?_]
    funext t'
    simp only [hP i j h1 h2 h3 h4]
  · intro ou ov
    have : s.HomogeneousDerivative u v ou ov = s'.HomogeneousDerivative u v ou ov := by
      unfold Surface.HomogeneousDerivative
      rw [hdu, hdv, hk, hk', hl, hl']
      simp only [bind, Except.bind]
      rw [b2 ou, b4 ov]
      congr 1
      funext _
      congr 1
      funext _
      congr 1
      funext bu
      congr 1
      funext bv
      congr 1
      funext _
      congr 1
      funext _
      congr 1
      funext r
      refine forLe_cong (fun a _ _ => ?_) _
      funext t
      refine forLe_cong (fun b _ _ => ?_) _
      funext t
      refine forLe_cong (fun j h3 h4 => ?_) _
      funext t
      rw [forLe_cong fun i h1 h2 => ?_]
      funext t'
      simp only [hP i j h1 h2 h3 h4]
    unfold Surface.EvaluateAll
    rw [this]

end Props
end

namespace Props

/-! ## Concrete cases -/

/-- a polygon in `double`; the last point is `P` -/
def exLocal64 (P : Double) : Curve Double := ⟨1, ⟨[0, 0, Double.fin (1/2), 1, 1]⟩, [⟨0, 0, 0, 1⟩, ⟨1, Double.fin 3, 0, 1⟩, ⟨P, P, P, P⟩]⟩

/-- NaN or infinity as last point does no harm before the middle. -/
example : (exLocal64 1).Evaluate (Double.fin (1/4)) = (exLocal64 Double.bad).Evaluate (Double.fin (1/4)) ∧
    (exLocal64 1).EvaluateAll (Double.fin (1/4)) 1 = (exLocal64 Double.bad).EvaluateAll (Double.fin (1/4)) 1 := by
  have h := C97_any_curve (c := exLocal64 1) (c' := exLocal64 Double.bad) rfl (x := Double.fin (1/4)) (k := 1) (k' := 1) (by decide +kernel)
    (by decide +kernel) (fun i h1 h2 => ⟨rfl, rfl⟩) (fun i h1 h2 => ?_)
  · exact ⟨h.1, h.2 1⟩
  · have h2' : i ≤ 1 := h2
    obtain rfl | rfl : i = 0 ∨ i = 1 := by omega
    all_goals rfl

/-- two strips of a surface; the last points are `P` -/
def exLocalPatch64 (P : Double) : Surface Double := ⟨1, 1, ⟨[0, 0, Double.fin (1/2), 1, 1]⟩, ⟨[0, 0, 1, 1]⟩,
  ⟨3, 2, [⟨0, 0, 0, 1⟩, ⟨1, Double.fin 3, 0, 1⟩, ⟨P, P, P, P⟩, ⟨0, 0, 1, 1⟩, ⟨1, Double.fin 3, 1, 1⟩, ⟨P, P, P, P⟩]⟩⟩

example : (exLocalPatch64 1).Evaluate (Double.fin (1/4)) 1 = (exLocalPatch64 Double.bad).Evaluate (Double.fin (1/4)) 1 := by
  refine (C97_any_surface (s := exLocalPatch64 1) (s' := exLocalPatch64 Double.bad) rfl rfl (u := Double.fin (1/4)) (v := 1) (k := 1) (k' := 1) (l := 1)
    (l' := 1) (by decide +kernel) (by decide +kernel) (by decide +kernel) (by decide +kernel) (fun i h1 h2 => ⟨rfl, rfl⟩) (fun i h1 h2 => ⟨rfl, rfl⟩)
    (fun i j h1 h2 h3 h4 => ?_)).1
  have h2' : i ≤ 1 := h2
  have h4' : j ≤ 1 := h4
  obtain rfl | rfl : i = 0 ∨ i = 1 := by omega
  all_goals
    obtain rfl | rfl : j = 0 ∨ j = 1 := by omega
    all_goals rfl

end Props
end Nurbs
