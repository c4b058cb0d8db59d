import Verif.Proof.SerialRel
import Verif.Proof.SerialCut
import Verif.Proof.SerialStable

/-! # C54–C60, C65–C67: files -/

set_option linter.unusedSectionVars false

namespace Nurbs.Props
open Nurbs Nurbs.Spec Serial Utils

/-! ## Examples -/

/-- the double 1.0 -/
abbrev one : F64 := 0x3FF0000000000000
/-- the double 0.5 -/
abbrev half : F64 := 0x3FE0000000000000
/-- the double -2.5 -/
abbrev minus : F64 := 0xC004000000000000
/-- the double 0.1 -/
abbrev tenth : F64 := 0x3FB999999999999A
/-- a signalling NaN -/
abbrev aNaN : F64 := 0x7FF0000000000001
/-- the double 2^-60 -/
abbrev tiny : F64 := 0x3C30000000000000
/-- the double 12.0 -/
abbrev twelve : F64 := 0x4028000000000000

/-- A quadratic curve with two segments. -/
def exFile : Curve F64 :=
  ⟨2, ⟨[0, 0, 0, half, one, one, one]⟩,
    [⟨0, 0, 0, one⟩, ⟨one, minus, 0, half⟩, ⟨tenth, one, 0, one⟩, ⟨half, half, minus, one⟩]⟩

/-- A bilinear surface. -/
def exSheet : Surface F64 :=
  ⟨1, 1, ⟨[0, 0, one, one]⟩, ⟨[0, 0, one, one]⟩,
    ⟨2, 2, [⟨0, 0, 0, one⟩, ⟨one, minus, 0, half⟩, ⟨tenth, one, 0, one⟩, ⟨half, half, minus, twelve⟩]⟩⟩

theorem survives_of_big {x : F64} (h : expField x ≠ 2047) (h0 : expField x ≠ 0) (h' : 1019 ≤ expField x) : Survives x := by
  refine ⟨h, .inl ?_⟩
  unfold absF64
  rw [if_neg h0]
  have h1 : (2 : ℚ) ^ (-56 : ℤ) ≤ (2 : ℚ) ^ ((expField x : ℤ) - 1075) := zpow_le_zpow_right₀ (by norm_num) (by omega)
  have h2 : (2 : ℚ) ^ 52 ≤ 2 ^ 52 + (fracField x : ℚ) := le_add_of_nonneg_right (Nat.cast_nonneg _)
  calc (1 / 16 : ℚ) = 2 ^ 52 * (2 : ℚ) ^ (-56 : ℤ) := by norm_num
    _ ≤ _ := mul_le_mul h2 h1 (by positivity) (by positivity)

theorem survives_zero : Survives 0 := ⟨by decide, .inr ⟨0, by rw [absF64, if_pos (by decide), show fracField 0 = 0 by decide]; simp⟩⟩
theorem survives_one : Survives one := survives_of_big (by decide) (by decide) (by decide)
theorem survives_half : Survives half := survives_of_big (by decide) (by decide) (by decide)
theorem survives_minus : Survives minus := survives_of_big (by decide) (by decide) (by decide)
theorem survives_tenth : Survives tenth := survives_of_big (by decide) (by decide) (by decide)
theorem survives_twelve : Survives twelve := survives_of_big (by decide) (by decide) (by decide)

theorem exFile_bin : BinCurve exFile := ⟨by decide, by decide, by decide⟩
theorem exSheet_bin : BinSurface exSheet :=
  ⟨by decide, by decide, by decide, by decide, by decide, by decide, by decide, by decide⟩
theorem exFile_text : TextCurve exFile := by
  refine ⟨by decide, ?_, ?_⟩
  · simp only [exFile, List.mem_cons, List.not_mem_nil, or_false]
    rintro x (rfl | rfl | rfl | rfl | rfl | rfl | rfl)
    exacts [survives_zero, survives_zero, survives_zero, survives_half, survives_one, survives_one, survives_one]
  · simp only [exFile, List.mem_cons, List.not_mem_nil, or_false]
    rintro v (rfl | rfl | rfl | rfl)
    exacts [⟨survives_zero, survives_zero, survives_zero, survives_one⟩,
      ⟨survives_one, survives_minus, survives_zero, survives_half⟩,
      ⟨survives_tenth, survives_one, survives_zero, survives_one⟩,
      ⟨survives_half, survives_half, survives_minus, survives_one⟩]
theorem exSheet_text : TextSurface exSheet := by
  refine ⟨by decide, by decide, ?_, ?_, by decide, by decide, by decide, by decide, ?_⟩
  · simp only [exSheet, List.mem_cons, List.not_mem_nil, or_false]
    rintro x (rfl | rfl | rfl | rfl)
    exacts [survives_zero, survives_zero, survives_one, survives_one]
  · simp only [exSheet, List.mem_cons, List.not_mem_nil, or_false]
    rintro x (rfl | rfl | rfl | rfl)
    exacts [survives_zero, survives_zero, survives_one, survives_one]
  · simp only [exSheet, List.mem_cons, List.not_mem_nil, or_false]
    rintro v (rfl | rfl | rfl | rfl)
    exacts [⟨survives_zero, survives_zero, survives_zero, survives_one⟩,
      ⟨survives_one, survives_minus, survives_zero, survives_half⟩,
      ⟨survives_tenth, survives_one, survives_zero, survives_one⟩,
      ⟨survives_half, survives_half, survives_minus, survives_twelve⟩]

theorem storable {s : Surface F64} (h : BinSurface s) : s.Storable :=
  ⟨h.degreeU, h.degreeV, h.knotsU.2, h.knotsV.2, h.uPos, h.vPos, h.count.2, h.storage⟩
theorem point_survives {v : Vec4 F64} (h : PointSurvives v) : SurvivesPt v :=
  ⟨readsBack h.1, readsBack h.2.1, readsBack h.2.2.1, readsBack h.2.2.2⟩
theorem curve_survives {c : Curve F64} (h : TextCurve c) : c.Survives :=
  ⟨h.degree, fun x hx => readsBack (h.knots x hx), fun v hv => point_survives (h.points v hv)⟩
theorem surface_survives {s : Surface F64} (h : TextSurface s) : s.Survives :=
  ⟨h.degreeU, h.degreeV, fun x hx => readsBack (h.knotsU x hx), fun x hx => readsBack (h.knotsV x hx), h.uPos, h.vPos, h.count.2,
    h.storage, fun v hv => point_survives (h.points v hv)⟩

/-! ## C54–C56: binary files -/

/-- C54.  A curve written in binary mode is read back bit for bit (NaN payloads included) into any object, and exactly the bytes
written are consumed. -/
theorem C54_curve_binary_round_trip {c : Curve F64} (h : BinCurve c) : ∃ file, c.SaveToFile true = .ok file ∧
    ∀ junk o rest, Curve.LoadFromFile junk o ⟨file ++ rest, false⟩ = (.ok (), c, ⟨rest, false⟩) :=
  ⟨_, Curve.save_binary h.knots.2 h.points.2,
    fun junk o rest => (Curve.reads_file h.degree h.knots.2 h.points.2 junk o).full rest⟩

/-- An object with NaN entries. -/
example : BinCurve ⟨-7, ⟨[aNaN, tiny]⟩, [⟨aNaN, aNaN, 0, one⟩]⟩ := ⟨by decide, by decide, by decide⟩
example : BinCurve exFile := exFile_bin

/-- C55.  Every strict prefix of a binary curve file is refused. -/
theorem C55_curve_truncated {c : Curve F64} (h : BinCurve c) {file : Bytes} (hf : c.SaveToFile true = .ok file) {l : Bytes}
    (hl : l <+: file) (hne : l ≠ file) (junk : Vec4 F64) (o : Curve F64) :
    (Curve.LoadFromFile junk o ⟨l, false⟩).1 = .error .throws := by
  rw [Curve.save_binary h.knots.2 h.points.2] at hf
  obtain rfl := Except.ok.inj hf
  exact (Curve.reads_file h.degree h.knots.2 h.points.2 junk o).cut l hl hne

/-- C55.  Every strict prefix of a binary surface file is refused. -/
theorem C55_surface_truncated {s : Surface F64} (h : BinSurface s) {file : Bytes} (hf : s.SaveToFile true = .ok file) {l : Bytes}
    (hl : l <+: file) (hne : l ≠ file) (junk : Vec4 F64) (o : Surface F64) :
    (Surface.LoadFromFile junk o ⟨l, false⟩).1 = .error .throws := by
  rw [Surface.save_binary (storable h)] at hf
  obtain rfl := Except.ok.inj hf
  exact (Surface.reads_file (storable h) junk o).cut l hl hne

/-- C56.  The same as C54 for surfaces. -/
theorem C56_surface_binary_round_trip {s : Surface F64} (h : BinSurface s) : ∃ file, s.SaveToFile true = .ok file ∧
    ∀ junk o rest, Surface.LoadFromFile junk o ⟨file ++ rest, false⟩ = (.ok (), s, ⟨rest, false⟩) :=
  ⟨_, Surface.save_binary (storable h), fun junk o rest => (Surface.reads_file (storable h) junk o).full rest⟩

example : BinSurface exSheet := exSheet_bin

/-! ## C57, C65: text files -/

/-- C57 (part).  A curve whose numbers survive 17 decimals (see `Spec.Survives`) is read back bit for bit into a new object.  Missing:
all other finite numbers, for which the claim is false. -/
theorem C57_text_round_trip_partial {c : Curve F64} (h : TextCurve c) : ∃ file, c.SaveToFile false = .ok file ∧
    ∀ junk, Curve.LoadFromFile junk {} ⟨file, false⟩ = (.ok (), c, ⟨[], true⟩) :=
  ⟨_, Curve.save_text c, fun junk => by rw [Curve.load_text (curve_survives h)]; rfl⟩

example : TextCurve exFile := exFile_text

/-- C57 is false of the code: the coordinate `2^-60` is written as `0.00000000000000000`. -/
theorem C57_small_number_refuted : FiniteF64 tiny ∧ ∃ file,
    (⟨0, ⟨[]⟩, [⟨tiny, 0, 0, one⟩]⟩ : Curve F64).SaveToFile false = .ok file ∧
    Curve.LoadFromFile ⟨0, 0, 0, 0⟩ {} ⟨file, false⟩ = (.ok (), ⟨0, ⟨[]⟩, [⟨0, 0, 0, one⟩]⟩, ⟨[], true⟩) :=
  ⟨by decide, _, rfl, by decide +kernel⟩

/-- Infinities and NaNs are written as words that cannot be read back. -/
theorem C57_nan_refused : ∃ file, (⟨0, ⟨[aNaN]⟩, []⟩ : Curve F64).SaveToFile false = .ok file ∧
    (Curve.LoadFromFile ⟨0, 0, 0, 0⟩ {} ⟨file, false⟩).1 = .error .throws := ⟨_, rfl, by decide +kernel⟩

/-- C65 (part).  A surface whose numbers survive 17 decimals is read back bit for bit into a new object. -/
theorem C65_text_round_trip_partial {s : Surface F64} (h : TextSurface s) : ∃ file, s.SaveToFile false = .ok file ∧
    ∀ junk, Surface.LoadFromFile junk {} ⟨file, false⟩ = (.ok (), s, ⟨[], true⟩) :=
  ⟨_, Surface.save_text (surface_survives h), fun junk => by rw [Surface.load_text (surface_survives h)]; rfl⟩

example : TextSurface exSheet := exSheet_text

/-- C65 is false of the code for the same reason as C57. -/
theorem C65_small_number_refuted : FiniteF64 tiny ∧ ∃ file,
    (⟨0, 0, ⟨[]⟩, ⟨[]⟩, ⟨1, 1, [⟨tiny, 0, 0, one⟩]⟩⟩ : Surface F64).SaveToFile false = .ok file ∧
    Surface.LoadFromFile ⟨0, 0, 0, 0⟩ {} ⟨file, false⟩ = (.ok (), ⟨0, 0, ⟨[]⟩, ⟨[]⟩, ⟨1, 1, [⟨0, 0, 0, one⟩]⟩⟩, ⟨[], true⟩) :=
  ⟨by decide, _, rfl, by decide +kernel⟩

/-! ## C58: loading into a used object -/

/-- C58 (part), curves.  For every byte sequence with a binary header, a successful load gives the same curve whatever the object
contained before (and whatever the memory of new points contained).  Missing: text files. -/
theorem C58_curve_binary_partial {bytes line : Bytes} (hl : IsFirstLine bytes line)
    (hw : FirstWords line (ascii ['L', 'I', 'B', 'N', 'U', 'R', 'B', 'S']) (ascii ['B', 'I', 'N']) (ascii ['C', 'U', 'R', 'V', 'E']))
    {junk₁ junk₂ : Vec4 F64} {o₁ o₂ c : Curve F64} {s : IStream}
    (h : Curve.LoadFromFile junk₁ o₁ ⟨bytes, false⟩ = (.ok (), c, s)) :
    Curve.LoadFromFile junk₂ o₂ ⟨bytes, false⟩ = (.ok (), c, s) := by
  obtain ⟨t, -, -, ht⟩ := readHeader_of (σ := Curve F64) (type := lit ['C', 'U', 'R', 'V', 'E']) (w := lit ['B', 'I', 'N']) (by decide) hl hw (.inr rfl)
  unfold Curve.LoadFromFile at h ⊢
  rw [Load.bind_of_ok (ht _)] at h ⊢
  obtain ⟨o₂', h', rfl⟩ := Curve.rel_binary junk₁ junk₂ o₁ o₂ t _ _ _ trivial h
  exact h'

/-- C58 (part), surfaces. -/
theorem C58_surface_binary_partial {bytes line : Bytes} (hl : IsFirstLine bytes line)
    (hw : FirstWords line (ascii ['L', 'I', 'B', 'N', 'U', 'R', 'B', 'S']) (ascii ['B', 'I', 'N'])
      (ascii ['S', 'U', 'R', 'F', 'A', 'C', 'E']))
    {junk₁ junk₂ : Vec4 F64} {o₁ o₂ c : Surface F64} {s : IStream}
    (h : Surface.LoadFromFile junk₁ o₁ ⟨bytes, false⟩ = (.ok (), c, s)) :
    Surface.LoadFromFile junk₂ o₂ ⟨bytes, false⟩ = (.ok (), c, s) := by
  obtain ⟨t, -, -, ht⟩ := readHeader_of (σ := Surface F64) (type := lit ['S', 'U', 'R', 'F', 'A', 'C', 'E']) (w := lit ['B', 'I', 'N']) (by decide) hl hw (.inr rfl)
  unfold Surface.LoadFromFile at h ⊢
  rw [Load.bind_of_ok (ht _)] at h ⊢
  obtain ⟨o₂', h', rfl⟩ := Surface.rel_binary junk₁ junk₂ o₁ o₂ t _ _ _ trivial h
  exact h'

/-- C58 is false of the code: for every text file of a curve, the knots and the points are appended to those the object had. -/
theorem C58_text_appends_refuted {c : Curve F64} (h : TextCurve c) : ∃ file, c.SaveToFile false = .ok file ∧
    ∀ junk o, Curve.LoadFromFile junk o ⟨file, false⟩ = (.ok (), ⟨c.Degree, ⟨o.Knots.Values ++ c.Knots.Values⟩,
      o.ControlPoints ++ c.ControlPoints⟩, ⟨[], true⟩) :=
  ⟨_, Curve.save_text c, fun junk o => Curve.load_text (curve_survives h) junk o⟩

/-- The same for any byte sequence with a text header: if it loads at all into a new object, it loads into every object, and the
knots and points end up behind the old ones. -/
theorem C58_text_always_appends {bytes line : Bytes} (hl : IsFirstLine bytes line)
    (hw : FirstWords line (ascii ['L', 'I', 'B', 'N', 'U', 'R', 'B', 'S']) (ascii ['T', 'X', 'T']) (ascii ['C', 'U', 'R', 'V', 'E']))
    {junk : Vec4 F64} {c : Curve F64} {s : IStream} (h : Curve.LoadFromFile junk {} ⟨bytes, false⟩ = (.ok (), c, s))
    (o : Curve F64) : ∃ c', Curve.LoadFromFile junk o ⟨bytes, false⟩ = (.ok (), c', s) ∧
      c'.Knots.Values = o.Knots.Values ++ c.Knots.Values ∧ c'.ControlPoints = o.ControlPoints ++ c.ControlPoints := by
  obtain ⟨t, -, -, ht⟩ := readHeader_of (σ := Curve F64) (type := lit ['C', 'U', 'R', 'V', 'E']) (w := lit ['T', 'X', 'T']) (by decide) hl hw (.inl rfl)
  unfold Curve.LoadFromFile at h ⊢
  rw [Load.bind_of_ok (ht _)] at h ⊢
  exact rel_textLoop (R := Curve.Shifted o) (fun k l => Curve.shift_processKey o k l) {} o t _ _ _
    ⟨by simp, by simp⟩ h

/-- For surfaces the knots are appended, the grid is replaced. -/
theorem C58_surface_text_refuted {s : Surface F64} (h : TextSurface s) : ∃ file, s.SaveToFile false = .ok file ∧
    ∀ junk o, Surface.LoadFromFile junk o ⟨file, false⟩ = (.ok (), ⟨s.DegreeU, s.DegreeV, ⟨o.KnotsU.Values ++ s.KnotsU.Values⟩,
      ⟨o.KnotsV.Values ++ s.KnotsV.Values⟩, s.ControlPoints⟩, ⟨[], true⟩) :=
  ⟨_, Surface.save_text (surface_survives h), fun junk o => Surface.load_text (surface_survives h) junk o⟩

/-- A header as it is written. -/
example : FirstWords (ascii ['L', 'I', 'B', 'N', 'U', 'R', 'B', 'S', ' ', 'B', 'I', 'N', ' ', 'C', 'U', 'R', 'V', 'E'])
    (ascii ['L', 'I', 'B', 'N', 'U', 'R', 'B', 'S']) (ascii ['B', 'I', 'N']) (ascii ['C', 'U', 'R', 'V', 'E']) :=
  ⟨[], [32], [32], [], rfl, by simp, by simp [Space], by simp [Space], by simp, by simp, by unfold Space; decide,
    by unfold Space; decide, by unfold Space; decide, by simp⟩

/-! ## C59: the header -/

/-- C59, curves: unless the first three words of the first line are `LIBNURBS`, `TXT` or `BIN`, and `CURVE`, the load throws and
leaves the object as it was. -/
theorem C59_curve_header (bytes : Bytes) (junk : Vec4 F64) (o : Curve F64) :
    (∃ line mode, IsFirstLine bytes line ∧
      FirstWords line (ascii ['L', 'I', 'B', 'N', 'U', 'R', 'B', 'S']) mode (ascii ['C', 'U', 'R', 'V', 'E']) ∧
      (mode = ascii ['T', 'X', 'T'] ∨ mode = ascii ['B', 'I', 'N'])) ∨
    ∃ s, Curve.LoadFromFile junk o ⟨bytes, false⟩ = (.error .throws, o, s) := by
  rcases readHeader_inv (type := lit ['C', 'U', 'R', 'V', 'E']) (b := bytes) (by decide) (o := o) with
    ⟨line, w, s, -, h1, h2, h3⟩ | ⟨s, h⟩
  · exact .inl ⟨line, w, h1, h2, h3⟩
  · refine .inr ⟨s, ?_⟩
    unfold Curve.LoadFromFile
    show Load.bind _ _ _ _ = _
    unfold Load.bind
    rw [h]

/-- C59, surfaces. -/
theorem C59_surface_header (bytes : Bytes) (junk : Vec4 F64) (o : Surface F64) :
    (∃ line mode, IsFirstLine bytes line ∧
      FirstWords line (ascii ['L', 'I', 'B', 'N', 'U', 'R', 'B', 'S']) mode (ascii ['S', 'U', 'R', 'F', 'A', 'C', 'E']) ∧
      (mode = ascii ['T', 'X', 'T'] ∨ mode = ascii ['B', 'I', 'N'])) ∨
    ∃ s, Surface.LoadFromFile junk o ⟨bytes, false⟩ = (.error .throws, o, s) := by
  rcases readHeader_inv (type := lit ['S', 'U', 'R', 'F', 'A', 'C', 'E']) (b := bytes) (by decide) (o := o) with
    ⟨line, w, s, -, h1, h2, h3⟩ | ⟨s, h⟩
  · exact .inl ⟨line, w, h1, h2, h3⟩
  · refine .inr ⟨s, ?_⟩
    unfold Surface.LoadFromFile
    show Load.bind _ _ _ _ = _
    unfold Load.bind
    rw [h]

/-- The header is all that is checked: a text file consisting of such a line only is accepted. -/
theorem C59_curve_header_enough {line : Bytes} (hn : (10 : UInt8) ∉ line)
    (hw : FirstWords line (ascii ['L', 'I', 'B', 'N', 'U', 'R', 'B', 'S']) (ascii ['T', 'X', 'T']) (ascii ['C', 'U', 'R', 'V', 'E']))
    (junk : Vec4 F64) (o : Curve F64) :
    Curve.LoadFromFile junk o ⟨line ++ [10], false⟩ = (.ok (), o, ⟨[], true⟩) ∧
    Curve.LoadFromFile junk o ⟨line, false⟩ = (.ok (), o, ⟨[], true⟩) := by
  constructor
  · obtain ⟨t, -, h2, ht⟩ := readHeader_of (σ := Curve F64) (b := line ++ [10]) (type := lit ['C', 'U', 'R', 'V', 'E']) (w := lit ['T', 'X', 'T']) (by decide) ⟨hn, .inr ⟨[], rfl⟩⟩ hw (.inl rfl)
    unfold Curve.LoadFromFile
    rw [Load.bind_of_ok (ht _), h2 [] rfl]
    rfl
  · obtain ⟨t, h1, -, ht⟩ := readHeader_of (σ := Curve F64) (b := line) (type := lit ['C', 'U', 'R', 'V', 'E']) (w := lit ['T', 'X', 'T']) (by decide) ⟨hn, .inl rfl⟩ hw (.inl rfl)
    unfold Curve.LoadFromFile
    rw [Load.bind_of_ok (ht _), h1 rfl]
    rfl

/-- `LIBNURBS TXT SURFACE` is refused by curves. -/
example : (Curve.LoadFromFile ⟨0, 0, 0, 0⟩ {} ⟨ascii ['L', 'I', 'B', 'N', 'U', 'R', 'B', 'S', ' ', 'T', 'X', 'T', ' ', 'S', 'U', 'R',
    'F', 'A', 'C', 'E', '\n'], false⟩).1 = .error .throws := by decide +kernel

/-! ## C60: `TrimString` -/

/-- C60.  `TrimString s` is `s` without the surrounding white space. -/
theorem C60_trim (s : Bytes) : IsTrimmed s (TrimString s) := trim_spec s

/-- … it is the longest part of `s` with no white space at its ends, -/
theorem C60_trim_longest {s t : Bytes} (h : t <:+: s) (h1 : ∀ c ∈ t.head?, ¬ Space c) (h2 : ∀ c ∈ t.getLast?, ¬ Space c) :
    t.length ≤ (TrimString s).length := by
  obtain ⟨a, b, hs, ha, hb, -, -⟩ := trim_spec s
  obtain ⟨p, q, hpq⟩ := h
  by_cases ht : t = []
  · simp [ht]
  have e : s.length = a.length + (TrimString s).length + b.length := by
    conv_lhs => rw [hs]
    simp [Nat.add_assoc]
  have e' : s.length = p.length + t.length + q.length := by rw [← hpq]; simp [Nat.add_assoc]
  have k1 : a.length ≤ p.length := by
    by_contra hlt
    push Not at hlt
    obtain ⟨c, t', rfl⟩ := List.exists_cons_of_ne_nil ht
    have g1 : s[p.length]? = some c := by
      rw [← hpq]
      simp
    have g2 : s[p.length]? = some a[p.length] := by
      rw [hs, List.append_assoc, List.getElem?_append_left hlt, List.getElem?_eq_getElem hlt]
    rw [g1] at g2
    have := Option.some.inj g2
    exact h1 c (by simp) (by rw [this]; exact ha _ (List.getElem_mem _))
  have k2 : b.length ≤ q.length := by
    by_contra hlt
    push Not at hlt
    have hpos : 0 < t.length := List.length_pos_iff.2 ht
    have g1 : s[p.length + (t.length - 1)]? = some (t.getLast ht) := by
      rw [← hpq, List.append_assoc, List.getElem?_append_right (by omega), List.getElem?_append_left (by omega),
        List.getLast_eq_getElem, List.getElem?_eq_getElem (by omega)]
      congr 2
      omega
    have hi : p.length + (t.length - 1) - (a ++ TrimString s).length < b.length := by
      rw [List.length_append]; omega
    have g2 : s[p.length + (t.length - 1)]? = some b[p.length + (t.length - 1) - (a ++ TrimString s).length] := by
      conv_lhs => rw [hs]
      rw [List.getElem?_append_right (by rw [List.length_append]; omega), List.getElem?_eq_getElem hi]
    rw [g1] at g2
    have := Option.some.inj g2
    exact h2 _ (by rw [List.getLast?_eq_some_getLast ht]; rfl) (by rw [this]; exact hb _ (List.getElem_mem _))
  omega

/-- … and trimming again changes nothing. -/
theorem C60_trim_idempotent (s : Bytes) : TrimString (TrimString s) = TrimString s := by
  obtain ⟨a, b, -, -, -, h1, h2⟩ := trim_spec s
  exact trim_id (fun c hc => (isspace_false_iff c).2 (h1 c hc)) (fun c hc => (isspace_false_iff c).2 (h2 c hc))

example : TrimString (ascii [' ', '\t', 'a', ' ', 'b', '\n']) = ascii ['a', ' ', 'b'] ∧ TrimString (ascii [' ', '\n']) = [] := by decide

/-! ## C66: what a failed load leaves behind -/

/-- C66 (part): a bad header leaves the object as it was.  Missing: failures after the header, for which the claim is false. -/
theorem C66_curve_bad_header_partial {bytes : Bytes}
    (h : ∀ line, IsFirstLine bytes line → ∀ mode,
      (mode = ascii ['T', 'X', 'T'] ∨ mode = ascii ['B', 'I', 'N']) →
      ¬ FirstWords line (ascii ['L', 'I', 'B', 'N', 'U', 'R', 'B', 'S']) mode (ascii ['C', 'U', 'R', 'V', 'E']))
    (junk : Vec4 F64) (o : Curve F64) : ∃ s, Curve.LoadFromFile junk o ⟨bytes, false⟩ = (.error .throws, o, s) := by
  rcases C59_curve_header bytes junk o with ⟨line, mode, h1, h2, h3⟩ | h'
  · exact (h line h1 mode h3 h2).elim
  · exact h'

/-- C66 (part) for surfaces. -/
theorem C66_surface_bad_header_partial {bytes : Bytes}
    (h : ∀ line, IsFirstLine bytes line → ∀ mode,
      (mode = ascii ['T', 'X', 'T'] ∨ mode = ascii ['B', 'I', 'N']) →
      ¬ FirstWords line (ascii ['L', 'I', 'B', 'N', 'U', 'R', 'B', 'S']) mode (ascii ['S', 'U', 'R', 'F', 'A', 'C', 'E']))
    (junk : Vec4 F64) (o : Surface F64) : ∃ s, Surface.LoadFromFile junk o ⟨bytes, false⟩ = (.error .throws, o, s) := by
  rcases C59_surface_header bytes junk o with ⟨line, mode, h1, h2, h3⟩ | h'
  · exact (h line h1 mode h3 h2).elim
  · exact h'

/-- an empty file has a bad header -/
example : ∀ line, IsFirstLine [] line → ∀ mode, (mode = ascii ['T', 'X', 'T'] ∨ mode = ascii ['B', 'I', 'N']) →
    ¬ FirstWords line (ascii ['L', 'I', 'B', 'N', 'U', 'R', 'B', 'S']) mode (ascii ['C', 'U', 'R', 'V', 'E']) := by
  rintro line ⟨-, h | ⟨rest, h⟩⟩ mode - ⟨s₀, s₁, s₂, rest', e, -⟩
  · have := congrArg List.length (h.trans e)
    simp [ascii] at this
  · simp at h

/-- C66 is false of the code.  A text file whose last key is unknown: the load throws, but the degree and the knots of the object have
been changed.  A binary file cut after the degree: the load throws, but the degree has been changed. -/
theorem C66_partial_change_refuted :
    (∃ s, Curve.LoadFromFile ⟨0, 0, 0, 0⟩ ⟨1, ⟨[0, one]⟩, []⟩ ⟨ascii ['L', 'I', 'B', 'N', 'U', 'R', 'B', 'S', ' ', 'T', 'X', 'T', ' ', 'C',
      'U', 'R', 'V', 'E', '\n', '*', 'D', 'e', 'g', 'r', 'e', 'e', ':', ' ', '7', '\n', '*', 'K', 'n', 'o', 't', 's', ':', '0', '.', '5', '\n',
      '*', 'X', ':', '\n'], false⟩ = (.error .throws, ⟨7, ⟨[0, one, half]⟩, []⟩, s)) ∧
    (∃ s, Curve.LoadFromFile ⟨0, 0, 0, 0⟩ ⟨1, ⟨[0, one]⟩, []⟩ ⟨ascii ['L', 'I', 'B', 'N', 'U', 'R', 'B', 'S', ' ', 'B', 'I', 'N', ' ', 'C',
      'U', 'R', 'V', 'E', '\n'] ++ [9, 0, 0, 0], false⟩ = (.error .throws, ⟨9, ⟨[0, one]⟩, []⟩, s)) :=
  ⟨⟨⟨[], true⟩, by decide +kernel⟩, ⟨⟨[], true⟩, by decide +kernel⟩⟩

/-! ## C67: truncated text files -/

/-- C67 is false of the code, for *every* curve with a point: the file without its last line is accepted, and the last point is missing. -/
theorem C67_curve_refuted {c : Curve F64} (h : TextCurve c) (hne : c.ControlPoints ≠ []) : ∃ file cut,
    c.SaveToFile false = .ok file ∧ cut <+: file ∧ cut ≠ file ∧
    ∀ junk, Curve.LoadFromFile junk {} ⟨cut, false⟩ = (.ok (), ⟨c.Degree, c.Knots, c.ControlPoints.dropLast⟩, ⟨[], true⟩) := by
  have h' : Curve.Survives ⟨c.Degree, c.Knots, c.ControlPoints.dropLast⟩ :=
    ⟨h.degree, fun x hx => readsBack (h.knots x hx), fun v hv => point_survives (h.points v (List.mem_of_mem_dropLast hv))⟩
  have e : curveText c = curveText ⟨c.Degree, c.Knots, c.ControlPoints.dropLast⟩ ++
      (vec4Text (c.ControlPoints.getLast hne) ++ lit [',', '\n']) := by
    unfold curveText
    conv_lhs => rw [← List.dropLast_append_getLast hne]
    simp only [List.flatMap_append, List.flatMap_cons, List.flatMap_nil, List.append_nil, List.append_assoc, List.cons_append]
  refine ⟨_, _, Curve.save_text c, ⟨vec4Text (c.ControlPoints.getLast hne) ++ lit [',', '\n'], ?_⟩, ?_,
    fun junk => (Curve.load_text h' junk {}).trans rfl⟩
  · rw [e, List.append_assoc, List.cons_append]
  · rw [e]
    intro e'
    have := congrArg List.length e'
    simp [lit] at this

/-- C67 (part): a surface file that lacks whole point lines is refused.  Missing: other cuts. -/
theorem C67_surface_lines_partial {s : Surface F64} (h : FiniteSurface s) {k : ℕ} (hk : k < s.ControlPoints.Values.length)
    {file missing cut : Bytes} (hf : s.SaveToFile false = .ok file)
    (hm : missing = (s.ControlPoints.Values.drop k).flatMap fun v => vec4Text v ++ [10]) (hc : file = cut ++ missing)
    (junk : Vec4 F64) (o : Surface F64) : (Surface.LoadFromFile junk o ⟨cut, false⟩).1 = .error .throws := by
  rw [Surface.save_text' h.uPos h.vPos h.storage] at hf
  have e : surfaceText s = surfaceText ⟨s.DegreeU, s.DegreeV, s.KnotsU, s.KnotsV,
        ⟨s.ControlPoints.UCount, s.ControlPoints.VCount, s.ControlPoints.Values.take k⟩⟩ ++ missing := by
    unfold surfaceText
    conv_lhs => rw [← List.take_append_drop k s.ControlPoints.Values]
    simp only [hm, List.flatMap_append, List.append_assoc, List.cons_append]
    rfl
  have := Surface.load_short (Surface.reread_survives h) junk o (k := k) (by simpa [Surface.reread] using hk)
  have et : surfaceText ⟨s.reread.DegreeU, s.reread.DegreeV, s.reread.KnotsU, s.reread.KnotsV,
        ⟨s.reread.ControlPoints.UCount, s.reread.ControlPoints.VCount, s.reread.ControlPoints.Values.take k⟩⟩ =
      surfaceText ⟨s.DegreeU, s.DegreeV, s.KnotsU, s.KnotsV,
        ⟨s.ControlPoints.UCount, s.ControlPoints.VCount, s.ControlPoints.Values.take k⟩⟩ := by
    unfold surfaceText Surface.reread
    simp only
    rw [knotsText_reread h.knotsU, knotsText_reread h.knotsV, ← List.map_take,
      points_reread fun v hv => h.points v (List.mem_of_mem_take hv)]
  rw [et] at this
  rw [← Except.ok.inj hf, e, ← List.cons_append, ← List.append_assoc] at hc
  rw [← List.append_cancel_right hc]
  exact this

/-- C67 (part): a surface file cut after the last `*` (so inside the `ControlPoints` section, its key included) which has lost its last
number completely – the missing piece contains a blank, or the cut ends with one – is refused.  Missing: cuts before that section and
cuts inside the last number, which can be accepted. -/
theorem C67_surface_points_partial {s : Surface F64} (h : FiniteSurface s) {file cut missing : Bytes} (hf : s.SaveToFile false = .ok file)
    (hc : file = cut ++ missing) (hkey : (42 : UInt8) ∉ missing)
    (hnum : (32 : UInt8) ∈ missing ∨ cut.getLast? = some 32) (junk : Vec4 F64) (o : Surface F64) :
    (Surface.LoadFromFile junk o ⟨cut, false⟩).1 = .error .throws := by
  rw [Surface.save_text' h.uPos h.vPos h.storage, ← Surface.reread_text h] at hf
  exact Surface.load_cut (Surface.reread_survives h) junk o (hc.symm.trans (Except.ok.inj hf).symm) hkey hnum

/-- C67 (part): a curve file cut inside a line of the `ControlPoints` section (the cut's last line `l` is not empty) with nothing of the
fourth number of that line – it has fewer than three blanks, or ends with one – is refused.  Missing: other cuts, which can be
accepted. -/
theorem C67_curve_point_partial {c : Curve F64} (h : FiniteCurve c) {file cut missing front l : Bytes}
    (hf : c.SaveToFile false = .ok file) (hc : file = cut ++ missing) (hkey : (42 : UInt8) ∉ missing)
    (hl : cut = front ++ 10 :: l) (hline : (10 : UInt8) ∉ l) (hpt : (42 : UInt8) ∉ l) (hne : l ≠ [])
    (hnum : l.count 32 < 3 ∨ l.getLast? = some 32) (junk : Vec4 F64) (o : Curve F64) :
    (Curve.LoadFromFile junk o ⟨cut, false⟩).1 = .error .throws := by
  rw [Curve.save_text, ← Curve.reread_text h] at hf
  exact Curve.load_cut (Curve.reread_survives h) junk o (hc.symm.trans (Except.ok.inj hf).symm) hkey hl hline hpt hne hnum

/-- … and so is an empty file. -/
theorem C67_empty_file_partial (junk : Vec4 F64) (o : Surface F64) (o' : Curve F64) :
    (Surface.LoadFromFile junk o ⟨[], false⟩).1 = .error .throws ∧ (Curve.LoadFromFile junk o' ⟨[], false⟩).1 = .error .throws :=
  ⟨rfl, rfl⟩

/-- C67 is false of the code for surfaces too: a file cut inside the last number is accepted with a different number. -/
theorem C67_surface_refuted : ∃ file, (⟨0, 0, ⟨[]⟩, ⟨[]⟩, ⟨1, 1, [⟨0, 0, 0, twelve⟩]⟩⟩ : Surface F64).SaveToFile false = .ok file ∧
    Surface.LoadFromFile ⟨0, 0, 0, 0⟩ {} ⟨file.take (file.length - 20), false⟩ =
      (.ok (), ⟨0, 0, ⟨[]⟩, ⟨[]⟩, ⟨1, 1, [⟨0, 0, 0, one⟩]⟩⟩, ⟨[], true⟩) :=
  ⟨_, rfl, by decide +kernel⟩

/-- C67 is false of the code for *every* surface and *every* curve: the first line alone is accepted, and the object stays as it was. -/
theorem C67_first_line_refuted (junk : Vec4 F64) :
    (∀ {s : Surface F64}, FiniteSurface s → ∀ o, ∃ file cut missing, s.SaveToFile false = .ok file ∧ file = cut ++ missing ∧
      missing ≠ [] ∧ Surface.LoadFromFile junk o ⟨cut, false⟩ = (.ok (), o, ⟨[], true⟩)) ∧
    (∀ (c : Curve F64) o, ∃ file cut missing, c.SaveToFile false = .ok file ∧ file = cut ++ missing ∧
      missing ≠ [] ∧ Curve.LoadFromFile junk o ⟨cut, false⟩ = (.ok (), o, ⟨[], true⟩)) := by
  constructor
  · intro s h o
    refine ⟨_, _, surfaceText s, Surface.save_text' h.uPos h.vPos h.storage, (List.append_cons _ _ _), ?_, ?_⟩
    · simp [surfaceText, lit]
    · unfold Surface.LoadFromFile
      rw [Load.bind_of_ok (readHeader_ok (b := false) (by decide) (by decide) (by decide) (by decide) o []), if_neg (by decide)]
      rfl
  · intro c o
    refine ⟨_, _, curveText c, Curve.save_text c, (List.append_cons _ _ _), ?_, ?_⟩
    · simp [curveText, lit]
    · unfold Curve.LoadFromFile
      rw [Load.bind_of_ok (readHeader_ok (b := false) (by decide) (by decide) (by decide) (by decide) o []), if_neg (by decide)]
      rfl

/-- The cut `…0.00000000000000000 ` of a surface with one point and of a curve with one point. -/
example : ∃ (s : Surface F64) (file : Bytes), FiniteSurface s ∧ s.SaveToFile false = .ok file ∧ (42 : UInt8) ∉ file.drop (file.length - 21) ∧
    (32 : UInt8) ∈ file.drop (file.length - 21) :=
  ⟨⟨0, 0, ⟨[]⟩, ⟨[]⟩, ⟨1, 1, [⟨0, 0, 0, one⟩]⟩⟩, _, by
    refine ⟨by decide, by decide, by simp, by simp, by decide, by decide, by decide, by decide, ?_⟩
    intro v hv
    rw [List.mem_singleton] at hv
    subst hv
    decide, rfl, by decide +kernel, by decide +kernel⟩

example : ∃ (c : Curve F64) (file front l : Bytes), FiniteCurve c ∧ c.SaveToFile false = .ok file ∧
    file.take (file.length - 31) = front ++ 10 :: l ∧ (42 : UInt8) ∉ file.drop (file.length - 31) ∧ (10 : UInt8) ∉ l ∧ (42 : UInt8) ∉ l ∧
    l ≠ [] ∧ l.count 32 < 3 :=
  ⟨⟨0, ⟨[]⟩, [⟨0, 0, 0, one⟩]⟩, _, ascii ['L', 'I', 'B', 'N', 'U', 'R', 'B', 'S', ' ', 'T', 'X', 'T', ' ', 'C', 'U', 'R', 'V', 'E', '\n',
      '*', 'D', 'e', 'g', 'r', 'e', 'e', ':', ' ', '0', '\n', '*', 'K', 'n', 'o', 't', 's', ':', '\n', '\n',
      '*', 'C', 'o', 'n', 't', 'r', 'o', 'l', 'P', 'o', 'i', 'n', 't', 's', ':'],
    fixedText 0 ++ (32 :: (fixedText 0 ++ (32 :: (fixedText 0).take 10))), by
    refine ⟨by decide, by simp, ?_⟩
    intro v hv
    rw [List.mem_singleton] at hv
    subst hv
    decide, rfl, by decide +kernel, by decide +kernel, by decide +kernel,
    by decide +kernel, by decide +kernel, by decide +kernel⟩

end Nurbs.Props
