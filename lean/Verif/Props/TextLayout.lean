import Verif.Proof.TextLayout

/-! # C107: the layout of text files; C108: what a file can do to the loader -/

set_option linter.unusedSectionVars false

namespace Nurbs.Props
open Nurbs Nurbs.Spec Serial Utils

/-- the first line of a text file of a curve -/
def CurveHeader (h : Bytes) : Prop := (10 : UInt8) ∉ h ∧
  FirstWords h (ascii ['L', 'I', 'B', 'N', 'U', 'R', 'B', 'S']) (ascii ['T', 'X', 'T']) (ascii ['C', 'U', 'R', 'V', 'E'])

/-- the first line of a text file of a surface -/
def SurfaceHeader (h : Bytes) : Prop := (10 : UInt8) ∉ h ∧
  FirstWords h (ascii ['L', 'I', 'B', 'N', 'U', 'R', 'B', 'S']) (ascii ['T', 'X', 'T']) (ascii ['S', 'U', 'R', 'F', 'A', 'C', 'E'])

theorem curve_text_load {h : Bytes} (hh : CurveHeader h) (b : Bytes) (junk : Vec4 F64) (o : Curve F64) : Curve.LoadFromFile junk o ⟨h ++ 10 :: b, false⟩ =
    (Load.forEach (textStep Curve.processKey) (splitBy (ch '\n') b) {} >>= finish Curve.processKey) o ⟨[], true⟩ := by
  obtain ⟨s, -, h2, h3⟩ := readHeader_of (σ := Curve F64) (b := h ++ 10 :: b) (type := lit ['C', 'U', 'R', 'V', 'E']) (w := lit ['T', 'X', 'T']) (by decide)
    ⟨hh.1, .inr ⟨b, rfl⟩⟩ hh.2 (.inl rfl)
  rw [h2 b rfl] at h3
  unfold Curve.LoadFromFile
  rw [Load.bind_of_ok (h3 o), if_neg (by decide)]
  exact textLoop_eq o b

theorem surface_text_load {h : Bytes} (hh : SurfaceHeader h) (b : Bytes) (junk : Vec4 F64) (o : Surface F64) :
    Surface.LoadFromFile junk o ⟨h ++ 10 :: b, false⟩ =
    (Load.forEach (textStep (Surface.processKey junk)) (splitBy (ch '\n') b) {} >>= finish (Surface.processKey junk)) o ⟨[], true⟩ := by
  obtain ⟨s, -, h2, h3⟩ := readHeader_of (σ := Surface F64) (b := h ++ 10 :: b) (type := lit ['S', 'U', 'R', 'F', 'A', 'C', 'E']) (w := lit ['T', 'X', 'T'])
    (by decide) ⟨hh.1, .inr ⟨b, rfl⟩⟩ hh.2 (.inl rfl)
  rw [h2 b rfl] at h3
  unfold Surface.LoadFromFile
  rw [Load.bind_of_ok (h3 o), if_neg (by decide)]
  exact textLoop_eq o b

/-- C107 (layout).  Blank lines and white space at the ends of lines make no difference, whatever the file contains; neither does the form of the
first line. -/
theorem C107_layout_curve {h h' : Bytes} (hh : CurveHeader h) (hh' : CurveHeader h') {l l' : List Bytes} (hl : SameLines l l')
    (hn : ∀ x ∈ l, (10 : UInt8) ∉ x) (hn' : ∀ x ∈ l', (10 : UInt8) ∉ x) (junk : Vec4 F64) (o : Curve F64) :
    Curve.LoadFromFile junk o ⟨h ++ 10 :: linesText l, false⟩ = Curve.LoadFromFile junk o ⟨h' ++ 10 :: linesText l', false⟩ := by
  rw [curve_text_load hh, curve_text_load hh', splitBy_linesText hn, splitBy_linesText hn', forEach_same hl]

/-- C107 (layout, surfaces). -/
theorem C107_layout_surface {h h' : Bytes} (hh : SurfaceHeader h) (hh' : SurfaceHeader h') {l l' : List Bytes} (hl : SameLines l l')
    (hn : ∀ x ∈ l, (10 : UInt8) ∉ x) (hn' : ∀ x ∈ l', (10 : UInt8) ∉ x) (junk : Vec4 F64) (o : Surface F64) :
    Surface.LoadFromFile junk o ⟨h ++ 10 :: linesText l, false⟩ = Surface.LoadFromFile junk o ⟨h' ++ 10 :: linesText l', false⟩ := by
  rw [surface_text_load hh, surface_text_load hh', splitBy_linesText hn, splitBy_linesText hn', forEach_same hl]

/-- C107 (last line).  The newline at the end of the file may be missing. -/
theorem C107_last_line {h : Bytes} {l : List Bytes} {x : Bytes} (hn : ∀ y ∈ l, (10 : UInt8) ∉ y) (hx : (10 : UInt8) ∉ x) (junk : Vec4 F64) :
    (CurveHeader h → ∀ o, Curve.LoadFromFile junk o ⟨h ++ 10 :: (linesText l ++ x), false⟩ = Curve.LoadFromFile junk o ⟨h ++ 10 :: linesText (l ++ [x]), false⟩) ∧
    (SurfaceHeader h → ∀ o, Surface.LoadFromFile junk o ⟨h ++ 10 :: (linesText l ++ x), false⟩ =
      Surface.LoadFromFile junk o ⟨h ++ 10 :: linesText (l ++ [x]), false⟩) := by
  have key : ∀ {σ : Type} (pk : Bytes → List Bytes → Load σ Unit), Load.forEach (textStep pk) (splitBy (ch '\n') (linesText l ++ x)) {} =
      Load.forEach (textStep pk) (splitBy (ch '\n') (linesText (l ++ [x]))) {} := by
    intro σ pk
    rw [splitBy_lines hn, splitBy_linesText (by
      intro y hy
      rcases List.mem_append.1 hy with hy | hy
      · exact hn y hy
      · rw [List.mem_singleton.1 hy]; exact hx)]
    by_cases e : x = []
    · subst e
      have blank : Blank [] := fun c hc => by simp at hc
      have : ∀ st, Load.forEach (textStep pk) [[]] st = pure st := fun st => by rw [forEach_pure (textStep_blank blank st)]; rfl
      rw [Load.forEach_append, Load.forEach_append]
      refine congrArg _ (funext fun st => ?_)
      rw [this st]
      rfl
    · rw [splitBy_last (d := ch '\n') hx e]
  constructor
  · intro hh o
    rw [curve_text_load hh, curve_text_load hh, key]
  · intro hh o
    rw [surface_text_load hh, surface_text_load hh, key]

/-- C107 (content before a key).  Content before the first `*key:` is refused and the object keeps its content. -/
theorem C107_early_content {h : Bytes} {l₁ l₂ : List Bytes} {x : Bytes} (hn : ∀ y ∈ l₁ ++ x :: l₂, (10 : UInt8) ∉ y) (h₁ : ∀ y ∈ l₁, Blank y)
    (hx : NoKey x) (hb : ¬ Blank x) (junk : Vec4 F64) :
    (CurveHeader h → ∀ o, Curve.LoadFromFile junk o ⟨h ++ 10 :: linesText (l₁ ++ x :: l₂), false⟩ = (.error .throws, o, ⟨[], true⟩)) ∧
    (SurfaceHeader h → ∀ o, Surface.LoadFromFile junk o ⟨h ++ 10 :: linesText (l₁ ++ x :: l₂), false⟩ = (.error .throws, o, ⟨[], true⟩)) := by
  constructor
  · intro hh o
    rw [curve_text_load hh, splitBy_linesText hn, early_content h₁ hx hb]
  · intro hh o
    rw [surface_text_load hh, splitBy_linesText hn, early_content h₁ hx hb]

/-- the keys of a curve -/
def curveKeys : List Bytes := [ascii ['D', 'e', 'g', 'r', 'e', 'e'], ascii ['K', 'n', 'o', 't', 's'],
  ascii ['C', 'o', 'n', 't', 'r', 'o', 'l', 'P', 'o', 'i', 'n', 't', 's']]

/-- the keys of a surface -/
def surfaceKeys : List Bytes := [ascii ['D', 'e', 'g', 'r', 'e', 'e', 'U'], ascii ['D', 'e', 'g', 'r', 'e', 'e', 'V'], ascii ['K', 'n', 'o', 't', 's', 'U'],
  ascii ['K', 'n', 'o', 't', 's', 'V'], ascii ['C', 'o', 'n', 't', 'r', 'o', 'l', 'P', 'o', 'i', 'n', 't', 's']]

theorem ascii_eq : ascii = lit := rfl

theorem trimmed_unique {s t : Bytes} (h : IsTrimmed s t) : TrimString s = t := by
  obtain ⟨a, b, hs, ha, hb, h1, h2⟩ := h
  exact trim_of hs (blank_space ha) (blank_space hb) (fun c hc => (isspace_false_iff c).2 (h1 c hc)) (fun c hc => (isspace_false_iff c).2 (h2 c hc))

/-- C107 (unknown keys, curves).  A file with a key other than the three of a curve is refused wherever the key stands.  Missing: keys without
a name, see `C107_nameless_refuted`. -/
theorem C107_unknown_key_curve_partial {h : Bytes} (hh : CurveHeader h) {l₁ l₂ : List Bytes} {x n v k : Bytes} (hn : ∀ y ∈ l₁ ++ x :: l₂, (10 : UInt8) ∉ y)
    (hx : KeyLine x n v) (hk : IsTrimmed n k) (hne : k ≠ []) (hu : k ∉ curveKeys) (junk : Vec4 F64) (o : Curve F64) :
    (Curve.LoadFromFile junk o ⟨h ++ 10 :: linesText (l₁ ++ x :: l₂), false⟩).1 = .error .throws := by
  have hk' := trimmed_unique hk
  have no : ∀ o' s', Curve.LoadFromFile junk o ⟨h ++ 10 :: linesText (l₁ ++ x :: l₂), false⟩ ≠ (.ok (), o', s') := by
    intro o' s'
    rw [curve_text_load hh, splitBy_linesText hn]
    refine unknown_key hx (by rw [hk']; exact hne) (fun ls o s o' s' e => ?_) _ _ _ _
    simp only [curveKeys, List.mem_cons, List.not_mem_nil, or_false, not_or, ascii_eq] at hu
    rw [hk'] at e
    unfold Curve.processKey at e
    rw [if_neg hu.1, if_neg hu.2.1, if_neg hu.2.2] at e
    exact absurd (congrArg Prod.fst e) (by simp [Load.fail])
  have only := Curve.onlyThrows_load junk o ⟨h ++ 10 :: linesText (l₁ ++ x :: l₂), false⟩
  generalize Curve.LoadFromFile junk o ⟨h ++ 10 :: linesText (l₁ ++ x :: l₂), false⟩ = r at no only
  obtain ⟨r, o', s'⟩ := r
  cases r with
  | ok u => exact absurd rfl (no o' s')
  | error e => rw [only e rfl]

/-- C107 (unknown keys, surfaces): never accepted. -/
theorem C107_unknown_key_surface_partial {h : Bytes} (hh : SurfaceHeader h) {l₁ l₂ : List Bytes} {x n v k : Bytes}
    (hn : ∀ y ∈ l₁ ++ x :: l₂, (10 : UInt8) ∉ y) (hx : KeyLine x n v) (hk : IsTrimmed n k) (hne : k ≠ []) (hu : k ∉ surfaceKeys) (junk : Vec4 F64)
    (o : Surface F64) : (Surface.LoadFromFile junk o ⟨h ++ 10 :: linesText (l₁ ++ x :: l₂), false⟩).1 ≠ .ok () := by
  have hk' := trimmed_unique hk
  have no : ∀ o' s', Surface.LoadFromFile junk o ⟨h ++ 10 :: linesText (l₁ ++ x :: l₂), false⟩ ≠ (.ok (), o', s') := by
    intro o' s'
    rw [surface_text_load hh, splitBy_linesText hn]
    refine unknown_key hx (by rw [hk']; exact hne) (fun ls o s o' s' e => ?_) _ _ _ _
    simp only [surfaceKeys, List.mem_cons, List.not_mem_nil, or_false, not_or, ascii_eq] at hu
    rw [hk'] at e
    unfold Surface.processKey at e
    rw [if_neg hu.1, if_neg hu.2.1, if_neg hu.2.2.1, if_neg hu.2.2.2.1, if_neg hu.2.2.2.2] at e
    exact absurd (congrArg Prod.fst e) (by simp [Load.fail])
  exact fun e => no _ _ (Prod.ext e (Prod.ext rfl rfl))

/-- The value of an integer section is exactly one line. -/
theorem intLine_length {ls : List Bytes} {o o' : Int} {s s' : IStream} (h : readIntLine ls o s = (.ok (), o', s')) : ls.length = 1 := by
  unfold readIntLine at h
  split at h
  · rfl
  · exact absurd (congrArg Prod.fst h) (by simp)

theorem zoom_ok {σ τ : Type} {g : σ → τ} {p : τ → σ → σ} {x : Load τ Unit} {o o' : σ} {s s' : IStream} (h : Load.zoom g p x o s = (.ok (), o', s')) :
    ∃ t t', x t s = (.ok (), t', s') := by
  refine ⟨g o, (x (g o) s).2.1, ?_⟩
  unfold Load.zoom at h
  simp only [Prod.mk.injEq] at h
  exact Prod.ext h.1 (Prod.ext rfl h.2.2)

/-- C107 (degree, curves).  The degree has exactly one line: a `*Degree:` followed, up to the next key or the end of the file, by no content or by
more than one line of it (the rest of its own line counts) is refused.  Missing: files with nameless keys, see `C107_nameless_refuted`. -/
theorem C107_degree_curve_partial {h : Bytes} (hh : CurveHeader h) {l₁ mid l₂ : List Bytes} {x n v : Bytes} (hn : ∀ y ∈ l₁ ++ x :: (mid ++ l₂), (10 : UInt8) ∉ y)
    (h₁ : ∀ y ∈ l₁, ∀ n v, KeyLine y n v → ¬ Blank n) (hx : KeyLine x n v) (hk : IsTrimmed n (ascii ['D', 'e', 'g', 'r', 'e', 'e'])) (hm : ∀ y ∈ mid, NoKey y)
    (h₂ : l₂ = [] ∨ ∃ y n' v' l, l₂ = y :: l ∧ KeyLine y n' v') (hc : contentLines (v :: mid) ≠ 1) (junk : Vec4 F64) (o : Curve F64) :
    (Curve.LoadFromFile junk o ⟨h ++ 10 :: linesText (l₁ ++ x :: (mid ++ l₂)), false⟩).1 = .error .throws := by
  have hk' := trimmed_unique hk
  have no : ∀ o' s', Curve.LoadFromFile junk o ⟨h ++ 10 :: linesText (l₁ ++ x :: (mid ++ l₂)), false⟩ ≠ (.ok (), o', s') := by
    intro o' s'
    rw [curve_text_load hh, splitBy_linesText hn]
    refine one_line h₁ hx (by rw [hk']; decide) hm h₂ hc (fun ls o s o' s' e => ?_) _ _ _ _
    rw [hk'] at e
    unfold Curve.processKey at e
    rw [if_pos (by decide)] at e
    obtain ⟨_, _, e'⟩ := zoom_ok e
    exact intLine_length e'
  have only := Curve.onlyThrows_load junk o ⟨h ++ 10 :: linesText (l₁ ++ x :: (mid ++ l₂)), false⟩
  generalize Curve.LoadFromFile junk o ⟨h ++ 10 :: linesText (l₁ ++ x :: (mid ++ l₂)), false⟩ = r at no only
  obtain ⟨r, o', s'⟩ := r
  cases r with
  | ok u => exact absurd rfl (no o' s')
  | error e => rw [only e rfl]

/-- C107 (degrees, surfaces). -/
theorem C107_degree_surface_partial {h : Bytes} (hh : SurfaceHeader h) {l₁ mid l₂ : List Bytes} {x n v k : Bytes}
    (hn : ∀ y ∈ l₁ ++ x :: (mid ++ l₂), (10 : UInt8) ∉ y)
    (h₁ : ∀ y ∈ l₁, ∀ n v, KeyLine y n v → ¬ Blank n) (hx : KeyLine x n v) (hk : IsTrimmed n k)
    (hd : k = ascii ['D', 'e', 'g', 'r', 'e', 'e', 'U'] ∨ k = ascii ['D', 'e', 'g', 'r', 'e', 'e', 'V']) (hm : ∀ y ∈ mid, NoKey y)
    (h₂ : l₂ = [] ∨ ∃ y n' v' l, l₂ = y :: l ∧ KeyLine y n' v') (hc : contentLines (v :: mid) ≠ 1) (junk : Vec4 F64) (o : Surface F64) :
    (Surface.LoadFromFile junk o ⟨h ++ 10 :: linesText (l₁ ++ x :: (mid ++ l₂)), false⟩).1 ≠ .ok () := by
  have hk' := trimmed_unique hk
  have no : ∀ o' s', Surface.LoadFromFile junk o ⟨h ++ 10 :: linesText (l₁ ++ x :: (mid ++ l₂)), false⟩ ≠ (.ok (), o', s') := by
    intro o' s'
    rw [surface_text_load hh, splitBy_linesText hn]
    refine one_line h₁ hx (by rw [hk']; rcases hd with rfl | rfl <;> decide) hm h₂ hc (fun ls o s o' s' e => ?_) _ _ _ _
    rw [hk'] at e
    unfold Surface.processKey at e
    rcases hd with rfl | rfl
    · rw [if_pos (by decide)] at e
      obtain ⟨_, _, e'⟩ := zoom_ok e
      exact intLine_length e'
    · rw [if_neg (by decide), if_pos (by decide)] at e
      obtain ⟨_, _, e'⟩ := zoom_ok e
      exact intLine_length e'
  exact fun e => no _ _ (Prod.ext e (Prod.ext rfl rfl))

/-- C107 is false of keys without a name: `*: 3` is accepted, and its value becomes that of the next key. -/
theorem C107_nameless_refuted : Curve.LoadFromFile ⟨0, 0, 0, 0⟩ {} ⟨ascii "LIBNURBS TXT CURVE\n*: 3\n*Degree:\n".toList, false⟩ =
    (.ok (), ⟨3, ⟨[]⟩, []⟩, ⟨[], true⟩) := by decide +kernel

/-- Characters after a number are ignored. -/
theorem C107_garbage_accepted : Curve.LoadFromFile ⟨0, 0, 0, 0⟩ {} ⟨ascii "LIBNURBS TXT CURVE\n*Degree: 3.7 or more\n*Knots: 1x, 1 2 3\n".toList, false⟩ =
    (.ok (), ⟨3, ⟨[0x3FF0000000000000, 0x3FF0000000000000]⟩, []⟩, ⟨[], true⟩) := by decide +kernel

/-! ## C108 -/

/-- C108 (curves).  Whatever bytes a curve is loaded from, binary or text, loading returns or throws an exception. -/
theorem C108_curve (junk : Vec4 F64) (o : Curve F64) (s : IStream) : (Curve.LoadFromFile junk o s).1 = .ok () ∨ (Curve.LoadFromFile junk o s).1 = .error .throws := by
  have only := Curve.onlyThrows_load junk o s
  generalize (Curve.LoadFromFile junk o s).1 = r at only ⊢
  cases r with
  | ok u => exact .inl rfl
  | error e => rw [only e rfl]; exact .inr rfl

/-- C108 (surfaces).  Loading a surface returns, throws, or has undefined behaviour; the latter only if the numbers of control points that it read are
positive with a product of at least `2^31`. -/
theorem C108_surface_partial (junk : Vec4 F64) (o : Surface F64) (s : IStream) :
    (Surface.LoadFromFile junk o s).1 = .ok () ∨ (Surface.LoadFromFile junk o s).1 = .error .throws ∨
    ((Surface.LoadFromFile junk o s).1 = .error .ub ∧ 0 < (Surface.LoadFromFile junk o s).2.1.ControlPoints.UCount ∧
      0 < (Surface.LoadFromFile junk o s).2.1.ControlPoints.VCount ∧
      2 ^ 31 ≤ (Surface.LoadFromFile junk o s).2.1.ControlPoints.UCount * (Surface.LoadFromFile junk o s).2.1.ControlPoints.VCount) := by
  have only := Surface.failsOnly_load junk o s
  generalize Surface.LoadFromFile junk o s = r at only ⊢
  obtain ⟨r, o', s'⟩ := r
  cases r with
  | ok u => exact .inl rfl
  | error e =>
    rcases only e o' s' rfl with rfl | ⟨rfl, h⟩
    · exact .inr (.inl rfl)
    · exact .inr (.inr ⟨rfl, h⟩)

/-- C108 is false of surfaces: `65536 * 65536` overflows, in text and in binary files. -/
theorem C108_surface_refuted :
    (Surface.LoadFromFile ⟨0, 0, 0, 0⟩ {} ⟨ascii "LIBNURBS TXT SURFACE\n*ControlPoints: 65536 65536\n".toList, false⟩).1 = .error .ub ∧
    (Surface.LoadFromFile ⟨0, 0, 0, 0⟩ {} ⟨ascii "LIBNURBS BIN SURFACE\n".toList ++ [1, 0, 0, 0, 1, 0, 0, 0, 0, 0, 0, 0, 0, 0, 0, 0, 0, 0, 1, 0, 0, 0, 1, 0], false⟩).1 =
      .error .ub := by decide +kernel

/-! ## Concrete cases -/

theorem exHeader : CurveHeader (ascii "LIBNURBS TXT CURVE".toList) := by
  refine ⟨by decide, [], ascii [' '], ascii [' '], [], by decide, by simp, ?_, ?_, by decide, by decide, ?_, ?_, ?_, by simp⟩ <;> unfold Space <;> decide

example : SurfaceHeader (ascii "LIBNURBS  TXT\tSURFACE v2\r".toList) := by
  refine ⟨by decide, [], ascii [' ', ' '], ascii ['\t'], ascii [' ', 'v', '2', '\r'], by decide, by simp, ?_, ?_, by decide, by decide, ?_, ?_, ?_, ?_⟩ <;>
    unfold Space <;> decide

theorem exKey (name value : Bytes) (hn : (58 : UInt8) ∉ name) : KeyLine (42 :: (name ++ 58 :: value)) name value := ⟨[], fun c hc => by simp at hc, rfl, hn⟩

/-- A file with `\r` at the ends of the lines, blank lines and indented keys. -/
example : SameLines [ascii "*Degree: 2".toList] [ascii "\r".toList, ascii "\t*Degree: 2 \r".toList, []] :=
  .right (by unfold Blank Space; decide) (.line (a := []) (b := []) (a' := ascii ['\t']) (b' := ascii [' ', '\r']) (x := ascii "*Degree: 2".toList)
    (by unfold Blank; simp) (by unfold Blank; simp) (by unfold Blank Space; decide) (by unfold Blank Space; decide)
    (.right (by unfold Blank; simp) .nil))

/-- An unknown key behind valid sections. -/
example : KeyLine (ascii "*Weights: 1".toList) (ascii "Weights".toList) (ascii " 1".toList) ∧ ascii "Weights".toList ∉ curveKeys :=
  ⟨exKey (ascii "Weights".toList) (ascii " 1".toList) (by decide), by decide⟩

/-- Two degrees, and none. -/
example : contentLines [ascii " 2".toList, ascii "3".toList] ≠ 1 ∧ contentLines [ascii " ".toList, []] ≠ 1 ∧ contentLines [ascii " 2".toList, ascii "\r".toList] = 1 := by
  decide

end Nurbs.Props
