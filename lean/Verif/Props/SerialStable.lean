import Verif.Props.Serialization

/-! # C85: text files are stable -/

set_option linter.unusedSectionVars false

namespace Nurbs.Props
open Nurbs Nurbs.Spec Serial Utils

/-- C85.  For every finite double: what a text file keeps of it has the same sign and differs by at most `10^-17`, and is printed as the same
text again. -/
theorem C85_number {x : F64} (h : FiniteF64 x) {rest : Bytes} (hr : rest = [] ∨ ∃ c l, rest = c :: l ∧ (c = 32 ∨ c = 44)) :
    ∃ y, extractDouble (fixedText x ++ rest) = some (y, rest) ∧ SameTo17 x y ∧ fixedText y = fixedText x := by
  refine ⟨reread x, ?_, reread_same h, reread_text h⟩
  rw [← reread_text h, ← List.nil_append (fixedText _ ++ rest)]
  have h1 : ∀ c ∈ rest.head?, c = (32 : UInt8) ∨ c = 44 := by
    rcases hr with rfl | ⟨c, l, rfl, hc⟩
    · intro c hc
      simp at hc
    · intro d hd
      rw [List.head?_cons, Option.mem_some] at hd
      rwa [← hd]
  refine extractDouble_text (reread_readsBack h) (fun c hc => by simp at hc) (fun c hc => ?_) (fun c hc => ?_)
  · rcases h1 c hc with rfl | rfl <;> decide
  · rcases h1 c hc with rfl | rfl <;> decide

/-- `2^-60` comes back as 0. -/
example : FiniteF64 tiny ∧ extractDouble (fixedText tiny) = some (0, []) := ⟨by decide, by decide +kernel⟩
/-- The double after 0.01 comes back as 0.01, which has the same decimals. -/
example : FiniteF64 0x3F847AE147AE147C ∧ extractDouble (fixedText 0x3F847AE147AE147C) = some (0x3F847AE147AE147B, []) ∧
    fixedText 0x3F847AE147AE147C = fixedText 0x3F847AE147AE147B := ⟨by decide, by decide +kernel, by decide +kernel⟩

/-- C85.  Every curve of finite numbers can be saved as text and loaded into a new object; every number comes back with its sign and up to
`10^-17`, unchanged if it survives 17 decimals; and the loaded curve is saved as the same file, byte for byte, so that nothing more is lost
by further saving and loading. -/
theorem C85_curve {c : Curve F64} (h : FiniteCurve c) : ∃ file c', c.SaveToFile false = .ok file ∧
    (∀ junk, Curve.LoadFromFile junk {} ⟨file, false⟩ = (.ok (), c', ⟨[], true⟩)) ∧
    c'.Degree = c.Degree ∧ List.Forall₂ SameTo17 c.Knots.Values c'.Knots.Values ∧
    List.Forall₂ PointSameTo17 c.ControlPoints c'.ControlPoints ∧ FiniteCurve c' ∧ c'.SaveToFile false = .ok file := by
  refine ⟨_, c.reread, Curve.save_text c, fun junk => ?_, rfl, forall₂_map fun x hx => reread_same (h.knots x hx),
    forall₂_map fun v hv => rereadPt_same (h.points v hv), ⟨h.degree, ?_, ?_⟩, ?_⟩
  · rw [← Curve.reread_text h, Curve.load_text (Curve.reread_survives h)]
    rfl
  · intro x hx
    exact ((Curve.reread_survives h).knots x hx).1
  · intro v hv
    obtain ⟨h1, h2, h3, h4⟩ := (Curve.reread_survives h).points v hv
    exact ⟨h1.1, h2.1, h3.1, h4.1⟩
  · rw [Curve.save_text, Curve.reread_text h]

/-- A curve that changes at the first saving. -/
example : FiniteCurve ⟨1, ⟨[0, 0, one, one]⟩, [⟨tiny, 0, 0, one⟩, ⟨0x3F847AE147AE147C, 0, 0, one⟩]⟩ :=
  ⟨by decide, by simp; decide, by simp; decide⟩

/-- C85 for surfaces. -/
theorem C85_surface {s : Surface F64} (h : FiniteSurface s) : ∃ file s', s.SaveToFile false = .ok file ∧
    (∀ junk, Surface.LoadFromFile junk {} ⟨file, false⟩ = (.ok (), s', ⟨[], true⟩)) ∧
    s'.DegreeU = s.DegreeU ∧ s'.DegreeV = s.DegreeV ∧ List.Forall₂ SameTo17 s.KnotsU.Values s'.KnotsU.Values ∧
    List.Forall₂ SameTo17 s.KnotsV.Values s'.KnotsV.Values ∧ s'.ControlPoints.UCount = s.ControlPoints.UCount ∧
    s'.ControlPoints.VCount = s.ControlPoints.VCount ∧ List.Forall₂ PointSameTo17 s.ControlPoints.Values s'.ControlPoints.Values ∧
    FiniteSurface s' ∧ s'.SaveToFile false = .ok file := by
  have hs := Surface.reread_survives h
  refine ⟨_, s.reread, Surface.save_text' h.uPos h.vPos h.storage, fun junk => ?_, rfl, rfl,
    forall₂_map fun x hx => reread_same (h.knotsU x hx), forall₂_map fun x hx => reread_same (h.knotsV x hx), rfl, rfl,
    forall₂_map fun v hv => rereadPt_same (h.points v hv),
    ⟨h.degreeU, h.degreeV, fun x hx => (hs.knotsU x hx).1, fun x hx => (hs.knotsV x hx).1, h.uPos, h.vPos, h.count, hs.storage, ?_⟩, ?_⟩
  · rw [← Surface.reread_text h, Surface.load_text hs]
    rfl
  · intro v hv
    obtain ⟨h1, h2, h3, h4⟩ := hs.points v hv
    exact ⟨h1.1, h2.1, h3.1, h4.1⟩
  · rw [Surface.save_text hs, Surface.reread_text h]

example : FiniteSurface ⟨1, 0, ⟨[0, 0, one, one]⟩, ⟨[0, tiny]⟩, ⟨2, 1, [⟨tiny, 0, 0, one⟩, ⟨0x3F847AE147AE147C, 0, 0, one⟩]⟩⟩ :=
  ⟨by decide, by decide, by simp; decide, by simp; decide, by decide, by decide, by decide, by decide, by simp; decide⟩

end Nurbs.Props
