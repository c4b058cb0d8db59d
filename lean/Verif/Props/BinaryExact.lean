import Verif.Proof.SerialInv
import Verif.Props.Serialization

/-! # C113: a binary file that loads is the file that saving writes -/

set_option linter.unusedSectionVars false

namespace Nurbs.Props
open Nurbs Serial Utils Spec

/-- C113 (curves).  Behind its header line, a binary file loads as `c` exactly when it begins with what `SaveToFile` writes for `c` behind
its own header line; what follows is left in the stream.  The object loaded into and its contents play no role. -/
theorem C113_curve {bytes line : Bytes} (hl : IsFirstLine bytes line)
    (hw : FirstWords line (ascii ['L', 'I', 'B', 'N', 'U', 'R', 'B', 'S']) (ascii ['B', 'I', 'N']) (ascii ['C', 'U', 'R', 'V', 'E']))
    (junk : Vec4 F64) (o c : Curve F64) (s : IStream) :
    Curve.LoadFromFile junk o ⟨bytes, false⟩ = (.ok (), c, s) ↔
      s.eof = false ∧ BinCurve c ∧ ∃ body, bytes = line ++ 10 :: (body ++ s.rest) ∧
        c.SaveToFile true = .ok (ascii ['L', 'I', 'B', 'N', 'U', 'R', 'B', 'S', ' ', 'B', 'I', 'N', ' ', 'C', 'U', 'R', 'V', 'E'] ++ 10 :: body) := by
  obtain ⟨t, t1, t2, ht⟩ := readHeader_of (σ := Curve F64) (type := lit ['C', 'U', 'R', 'V', 'E']) (w := lit ['B', 'I', 'N']) (by decide) hl hw (.inr rfl)
  unfold Curve.LoadFromFile
  rw [Load.bind_of_ok (ht _), decide_eq_true rfl, if_pos rfl]
  constructor
  · intro h
    obtain ⟨h1, h2, h3, h4, h5⟩ := Curve.binary_inv h
    refine ⟨h5, ⟨h1, ⟨by omega, h2⟩, ⟨by omega, h3⟩⟩, curveBody c, ?_, Curve.save_binary h2 h3⟩
    rcases hl.2 with e | ⟨rest, e⟩
    · rw [t1 e] at h4
      cases h4
    · rw [t2 rest e] at h4
      rw [e, (IStream.mk.inj h4).1]
  · rintro ⟨h1, h2, body, h3, h4⟩
    rw [Curve.save_binary h2.knots.2 h2.points.2] at h4
    have hb : curveBody c = body := List.cons.inj (List.append_cancel_left (Except.ok.inj h4)) |>.2
    subst hb
    rw [t2 _ h3, (Curve.reads_binary h2.degree h2.knots.2 h2.points.2 junk o).full s.rest]
    obtain ⟨l, e⟩ := s
    cases h1
    rfl

/-- C113 (surfaces). -/
theorem C113_surface {bytes line : Bytes} (hl : IsFirstLine bytes line)
    (hw : FirstWords line (ascii ['L', 'I', 'B', 'N', 'U', 'R', 'B', 'S']) (ascii ['B', 'I', 'N']) (ascii ['S', 'U', 'R', 'F', 'A', 'C', 'E']))
    (junk : Vec4 F64) (o c : Surface F64) (s : IStream) :
    Surface.LoadFromFile junk o ⟨bytes, false⟩ = (.ok (), c, s) ↔
      s.eof = false ∧ BinSurface c ∧ ∃ body, bytes = line ++ 10 :: (body ++ s.rest) ∧
        c.SaveToFile true = .ok (ascii ['L', 'I', 'B', 'N', 'U', 'R', 'B', 'S', ' ', 'B', 'I', 'N', ' ', 'S', 'U', 'R', 'F', 'A', 'C', 'E'] ++ 10 :: body) := by
  obtain ⟨t, t1, t2, ht⟩ := readHeader_of (σ := Surface F64) (type := lit ['S', 'U', 'R', 'F', 'A', 'C', 'E']) (w := lit ['B', 'I', 'N']) (by decide) hl hw (.inr rfl)
  unfold Surface.LoadFromFile
  rw [Load.bind_of_ok (ht _), decide_eq_true rfl, if_pos rfl]
  constructor
  · intro h
    obtain ⟨h1, h4, h5⟩ := Surface.binary_inv h
    refine ⟨h5, ⟨h1.degreeU, h1.degreeV, ⟨by omega, h1.knotsU⟩, ⟨by omega, h1.knotsV⟩, h1.uPos, h1.vPos, ⟨?_, h1.count⟩, h1.storage⟩,
      surfaceBody c, ?_, Surface.save_binary h1⟩
    · have := h1.storage
      omega
    rcases hl.2 with e | ⟨rest, e⟩
    · rw [t1 e] at h4
      cases h4
    · rw [t2 rest e] at h4
      rw [e, (IStream.mk.inj h4).1]
  · rintro ⟨h1, h2, body, h3, h4⟩
    rw [Surface.save_binary (storable h2)] at h4
    have hb : surfaceBody c = body := List.cons.inj (List.append_cancel_left (Except.ok.inj h4)) |>.2
    subst hb
    rw [t2 _ h3, (Surface.reads_binary (storable h2) junk o).full s.rest]
    obtain ⟨l, e⟩ := s
    cases h1
    rfl

/-- C113 (one to one).  Two binary files with the same header line that load as the same curve and leave nothing behind are the same file. -/
theorem C113_one_to_one {bytes₁ bytes₂ line : Bytes} (h₁ : IsFirstLine bytes₁ line) (h₂ : IsFirstLine bytes₂ line)
    (hw : FirstWords line (ascii ['L', 'I', 'B', 'N', 'U', 'R', 'B', 'S']) (ascii ['B', 'I', 'N']) (ascii ['C', 'U', 'R', 'V', 'E']))
    {junk₁ junk₂ : Vec4 F64} {o₁ o₂ c : Curve F64} {s₁ s₂ : IStream} (l₁ : Curve.LoadFromFile junk₁ o₁ ⟨bytes₁, false⟩ = (.ok (), c, s₁))
    (l₂ : Curve.LoadFromFile junk₂ o₂ ⟨bytes₂, false⟩ = (.ok (), c, s₂)) (r₁ : s₁.rest = []) (r₂ : s₂.rest = []) : bytes₁ = bytes₂ := by
  obtain ⟨-, -, b₁, e₁, f₁⟩ := (C113_curve h₁ hw junk₁ o₁ c s₁).1 l₁
  obtain ⟨-, -, b₂, e₂, f₂⟩ := (C113_curve h₂ hw junk₂ o₂ c s₂).1 l₂
  rw [f₁] at f₂
  rw [e₁, e₂, r₁, r₂, (List.cons.inj (List.append_cancel_left (Except.ok.inj f₂))).2]

theorem C113_one_to_one_surface {bytes₁ bytes₂ line : Bytes} (h₁ : IsFirstLine bytes₁ line) (h₂ : IsFirstLine bytes₂ line)
    (hw : FirstWords line (ascii ['L', 'I', 'B', 'N', 'U', 'R', 'B', 'S']) (ascii ['B', 'I', 'N']) (ascii ['S', 'U', 'R', 'F', 'A', 'C', 'E']))
    {junk₁ junk₂ : Vec4 F64} {o₁ o₂ c : Surface F64} {s₁ s₂ : IStream} (l₁ : Surface.LoadFromFile junk₁ o₁ ⟨bytes₁, false⟩ = (.ok (), c, s₁))
    (l₂ : Surface.LoadFromFile junk₂ o₂ ⟨bytes₂, false⟩ = (.ok (), c, s₂)) (r₁ : s₁.rest = []) (r₂ : s₂.rest = []) : bytes₁ = bytes₂ := by
  obtain ⟨-, -, b₁, e₁, f₁⟩ := (C113_surface h₁ hw junk₁ o₁ c s₁).1 l₁
  obtain ⟨-, -, b₂, e₂, f₂⟩ := (C113_surface h₂ hw junk₂ o₂ c s₂).1 l₂
  rw [f₁] at f₂
  rw [e₁, e₂, r₁, r₂, (List.cons.inj (List.append_cancel_left (Except.ok.inj f₂))).2]

/-- A file with an unusual header, one knot, no points and two bytes behind the end. -/
example : Curve.LoadFromFile ⟨0, 0, 0, 0⟩ {} ⟨ascii [' ', 'L', 'I', 'B', 'N', 'U', 'R', 'B', 'S', ' ', ' ', 'B', 'I', 'N', ' ', 'C', 'U', 'R', 'V', 'E', ' ', '!'] ++
      10 :: ([3, 0, 0, 0, 1, 0, 0, 0, 1, 2, 3, 4, 5, 6, 7, 8, 0, 0, 0, 0] ++ [77, 78]), false⟩ =
    (.ok (), ⟨3, ⟨[BitVec.ofNat 64 0x0807060504030201]⟩, []⟩, ⟨[77, 78], false⟩) := by decide +kernel

end Nurbs.Props
