import Verif.Proof.SerialBin
import Mathlib.Data.List.Infix

/-! # The header line, and the binary formats as a whole -/

set_option linter.unusedSectionVars false

namespace Nurbs
open Serial Utils

namespace Serial

/-- Scanning over the characters satisfying `p`. -/
theorem scan_append {p : Byte → Bool} {a : Bytes} (l : Bytes) (ha : ∀ c ∈ a, p c = true)
    (hl : ∀ c ∈ l.head?, p c = false) : (a ++ l).takeWhile p = a ∧ (a ++ l).dropWhile p = l := by
  induction a with
  | nil =>
    cases l with
    | nil => exact ⟨rfl, rfl⟩
    | cons b l =>
      have : p b = false := hl b rfl
      simp [this]
  | cons b a ih =>
    have hb : p b = true := ha b (by simp)
    have := ih fun c hc => ha c (by simp [hc])
    simp only [List.cons_append, List.takeWhile_cons, List.dropWhile_cons, hb, if_true]
    exact ⟨by rw [this.1], this.2⟩

theorem scan_all {p : Byte → Bool} {a : Bytes} (ha : ∀ c ∈ a, p c = true) :
    a.takeWhile p = a ∧ a.dropWhile p = [] := by
  have := scan_append [] ha (by simp)
  rwa [List.append_nil] at this

theorem takeWhile_line {line : Bytes} (h : ch '\n' ∉ line) (r : Bytes) :
    (line ++ ch '\n' :: r).takeWhile (· != ch '\n') = line ∧
      (line ++ ch '\n' :: r).dropWhile (· != ch '\n') = ch '\n' :: r := by
  exact scan_append _ (fun c hc => by simpa using fun e : c = ch '\n' => h (e ▸ hc)) (by simp)

theorem getline_line {line : Bytes} (h : ch '\n' ∉ line) (r : Bytes) :
    getline ⟨line ++ ch '\n' :: r, false⟩ = some (line, ⟨r, false⟩) := by
  unfold getline
  rw [if_neg (by simp)]
  simp only [(takeWhile_line h r).1, (takeWhile_line h r).2]

theorem getline_last {line : Bytes} (h : ch '\n' ∉ line) (hne : line ≠ []) :
    getline ⟨line, false⟩ = some (line, ⟨[], true⟩) := by
  have hb : ∀ c ∈ line, (c != ch '\n') = true := fun c hc => by
    simpa using fun e : c = ch '\n' => h (e ▸ hc)
  unfold getline
  rw [if_neg (by simpa using hne)]
  simp only [(scan_all hb).1, (scan_all hb).2]

theorem getline_nil : getline ⟨[], false⟩ = none := by simp [getline]

variable {σ : Type}

/-- A complete header line. -/
theorem readHeader_ok {type line : Bytes} (h : ch '\n' ∉ line) (h1 : (nextWord line).1 = LIBNURBS_MAGIC)
    {b : Bool} (h2 : (nextWord (nextWord line).2).1 = if b then lit ['B', 'I', 'N'] else lit ['T', 'X', 'T'])
    (h3 : (nextWord (nextWord (nextWord line).2).2).1 = type) (o : σ) (r : Bytes) :
    readHeader type o ⟨line ++ ch '\n' :: r, false⟩ = (.ok b, o, ⟨r, false⟩) := by
  unfold readHeader
  rw [getline_line h]
  simp only [h1, h2, h3, ne_eq, not_true_eq_false, if_false]
  cases b
  · rw [if_neg (by simp)]
    exact congrArg (fun b => (Except.ok b, o, (⟨r, false⟩ : IStream)))
      (show decide (lit ['T', 'X', 'T'] = lit ['B', 'I', 'N']) = false by decide)
  · rw [if_neg (by simp)]
    simp

/-- A truncated header line whose second word is not `TXT`: either the header is refused, or the stream is at
its end. -/
theorem readHeader_cut {type l : Bytes} (h : ch '\n' ∉ l) (h2 : (nextWord (nextWord l).2).1 ≠ lit ['T', 'X', 'T'])
    (o : σ) : (readHeader type o ⟨l, false⟩).1 = .error .throws ∨
      readHeader type o ⟨l, false⟩ = (.ok true, o, ⟨[], true⟩) := by
  unfold readHeader
  by_cases hl : l = []
  · subst hl; rw [getline_nil]; exact .inl rfl
  rw [getline_last h hl]
  simp only
  split_ifs with a b c
  · exact .inl rfl
  · exact .inl rfl
  · exact .inl rfl
  · right
    have : (nextWord (nextWord l).2).1 = lit ['B', 'I', 'N'] := by
      by_contra hb
      exact b ⟨h2, hb⟩
    rw [this]; simp

/-- Reading an `int` from a stream at its end throws. -/
theorem readIntMember_eof (g : σ → ℤ) (p : ℤ → σ → σ) (o : σ) :
    (readIntMember g p o ⟨[], true⟩).1 = .error .throws := rfl

/-- Header plus body of a binary file. -/
theorem reads_file {type line body : Bytes} (h : ch '\n' ∉ line) (h1 : (nextWord line).1 = LIBNURBS_MAGIC)
    (h2 : (nextWord (nextWord line).2).1 = lit ['B', 'I', 'N'])
    (h3 : (nextWord (nextWord (nextWord line).2).2).1 = type)
    (hcut : ∀ l ∈ line.inits, (nextWord (nextWord l).2).1 ≠ lit ['T', 'X', 'T'])
    {bin txt : Load σ Unit} {o o' : σ} (hbin : Load.Reads bin body o () o')
    (heof : (bin o ⟨[], true⟩).1 = .error .throws) :
    Load.Reads (do
      let mode_binary ← readHeader type
      if mode_binary then bin else txt : Load σ Unit) (line ++ ch '\n' :: body) o () o' where
  full r := by
    have e := readHeader_ok (b := true) h h1 h2 h3 o (body ++ r)
    rw [List.append_assoc, List.cons_append, Load.bind_of_ok e, if_pos rfl, hbin.full]
  cut l hl hne := by
    obtain ⟨t, ht⟩ := hl
    rcases List.append_eq_append_iff.1 ht with ⟨a', h', ht'⟩ | ⟨l', h', ht'⟩
    · have hpre : l <+: line := ⟨a', h'.symm⟩
      rcases readHeader_cut (type := type) (fun hc => h (hpre.subset hc)) (hcut l (by simpa using hpre)) o with e | e
      · exact Load.bind_of_error e
      · rw [Load.bind_of_ok e, if_pos rfl, heof]
    · obtain _ | ⟨b, l'⟩ := l'
      · rw [List.append_nil] at h'
        subst h'
        rcases readHeader_cut (type := type) h (hcut l (by simp)) o with e | e
        · exact Load.bind_of_error e
        · rw [Load.bind_of_ok e, if_pos rfl, heof]
      · rw [List.cons_append, List.cons.injEq] at ht'
        obtain ⟨rfl, ht'⟩ := ht'
        subst h'
        have e := readHeader_ok (b := true) h h1 h2 h3 o l'
        rw [Load.bind_of_ok e, if_pos rfl]
        exact hbin.cut l' ⟨t, ht'.symm⟩ fun e => hne (by rw [e])

end Serial

/-- `WriteKnotVectorToStream` of fewer than `2^31` knots. -/
theorem writeKnots_ok {k : KnotVector F64} (h : (k.Values.length : ℤ) < 2 ^ 31) :
    WriteKnotVectorToStream k = .ok (intBytes k.Values.length ++ arrBytes k.Values) := by
  unfold WriteKnotVectorToStream
  simp only
  rw [toInt32_of ⟨by omega, h⟩, if_neg (by omega), Int.toNat_natCast,
    List.take_of_length_le (by rw [arrBytes_length])]

/-! ## Curves -/

/-- The header of a binary curve. -/
def curveLine : Bytes := LIBNURBS_MAGIC ++ lit [' ', 'B', 'I', 'N', ' ', 'C', 'U', 'R', 'V', 'E']
/-- The header of a binary surface. -/
def surfaceLine : Bytes := LIBNURBS_MAGIC ++ lit [' ', 'B', 'I', 'N', ' ', 'S', 'U', 'R', 'F', 'A', 'C', 'E']

/-- Body of a binary curve file. -/
def curveBody (c : Curve F64) : Bytes :=
  intBytes c.Degree ++ ((intBytes c.Knots.Values.length ++ arrBytes c.Knots.Values) ++
    (intBytes c.ControlPoints.length ++ c.ControlPoints.flatMap WriteVec4ToStream))

theorem Curve.save_binary {c : Curve F64} (hk : (c.Knots.Values.length : ℤ) < 2 ^ 31)
    (hp : (c.ControlPoints.length : ℤ) < 2 ^ 31) :
    c.SaveToFile true = .ok (curveLine ++ ch '\n' :: curveBody c) := by
  unfold Curve.SaveToFile
  rw [if_pos rfl, writeKnots_ok hk, bind_ok, toInt32_of ⟨by omega, hp⟩]
  rfl

theorem Curve.reads_binary {c : Curve F64} (hd : IsInt c.Degree) (hk : (c.Knots.Values.length : ℤ) < 2 ^ 31)
    (hp : (c.ControlPoints.length : ℤ) < 2 ^ 31) (junk : Vec4 F64) (o : Curve F64) :
    Load.Reads (Curve.loadBinary junk) (curveBody c) o () c := by
  unfold Curve.loadBinary curveBody
  refine (Load.reads_intMember _ _ hd o).bind ?_
  refine (Load.Reads.zoom _ _ (Load.reads_knots _ _ hk)).bind ?_
  refine (Load.reads_intLocal ⟨by omega, hp⟩ _).bind ?_
  rw [if_neg (by omega), Int.toNat_natCast, ← List.nil_append (c.ControlPoints.flatMap _)]
  refine (Load.reads_modify _ _).bind ?_
  have := Load.reads_points junk (σ := Curve F64) (fun c => c.ControlPoints) (fun l c => { c with ControlPoints := l })
    (fun _ _ => rfl) (fun _ _ _ => rfl) (fun _ => rfl) c.ControlPoints []
    (resize o.ControlPoints c.ControlPoints.length junk)
    { o with Degree := c.Degree, Knots := c.Knots, ControlPoints := resize o.ControlPoints c.ControlPoints.length junk }
    rfl (resize_length _ _ _)
  rw [List.range_eq_range']
  exact this

theorem Curve.reads_file {c : Curve F64} (hd : IsInt c.Degree) (hk : (c.Knots.Values.length : ℤ) < 2 ^ 31)
    (hp : (c.ControlPoints.length : ℤ) < 2 ^ 31) (junk : Vec4 F64) (o : Curve F64) :
    Load.Reads (Curve.LoadFromFile junk) (curveLine ++ ch '\n' :: curveBody c) o () c := by
  unfold Curve.LoadFromFile
  exact Serial.reads_file (by decide) (by decide) (by decide) (by decide) (by decide +kernel)
    (Curve.reads_binary hd hk hp junk o) (Load.bind_of_error (readIntMember_eof _ _ _))

/-! ## Surfaces -/

/-- Body of a binary surface file. -/
def surfaceBody (s : Surface F64) : Bytes :=
  intBytes s.DegreeU ++ (intBytes s.DegreeV ++ ((intBytes s.KnotsU.Values.length ++ arrBytes s.KnotsU.Values) ++
    ((intBytes s.KnotsV.Values.length ++ arrBytes s.KnotsV.Values) ++
      (intBytes s.ControlPoints.UCount ++ (intBytes s.ControlPoints.VCount ++
        s.ControlPoints.Values.flatMap WriteVec4ToStream)))))

/-- Everything a binary file can hold. -/
structure Surface.Storable (s : Surface F64) : Prop where
  degreeU : IsInt s.DegreeU
  degreeV : IsInt s.DegreeV
  knotsU : (s.KnotsU.Values.length : ℤ) < 2 ^ 31
  knotsV : (s.KnotsV.Values.length : ℤ) < 2 ^ 31
  uPos : 0 < s.ControlPoints.UCount
  vPos : 0 < s.ControlPoints.VCount
  count : s.ControlPoints.UCount * s.ControlPoints.VCount < 2 ^ 31
  storage : (s.ControlPoints.Values.length : ℤ) = s.ControlPoints.UCount * s.ControlPoints.VCount

theorem Surface.Storable.uInt {s : Surface F64} (h : s.Storable) : IsInt s.ControlPoints.UCount := by
  have := h.uPos; have := h.vPos; have := h.count
  exact ⟨by omega, by nlinarith⟩

theorem Surface.Storable.vInt {s : Surface F64} (h : s.Storable) : IsInt s.ControlPoints.VCount := by
  have := h.uPos; have := h.vPos; have := h.count
  exact ⟨by omega, by nlinarith⟩

theorem Surface.Storable.gridCount {s : Surface F64} (h : s.Storable) :
    Surface.gridCount s.ControlPoints.UCount s.ControlPoints.VCount = .ok (s.ControlPoints.Values.length : ℤ) := by
  unfold Surface.gridCount
  rw [← h.storage, if_pos ⟨by omega, by rw [h.storage]; exact h.count⟩]

theorem write_points (l : List (Vec4 F64)) :
    forLt 0 l.length (fun i (os : Bytes) => do return os ++ WriteVec4ToStream (← vget l i)) [] =
      .ok (l.flatMap WriteVec4ToStream) := by
  have := forUp_eq (lo := 0) (f := fun i (os : Bytes) => (do return os ++ WriteVec4ToStream (← vget l i) : M Bytes))
    (g := fun k => (l.take k).flatMap WriteVec4ToStream) (n := l.length) (fun k hk => ?_)
  · rw [forLt_eq_forUp 0 _ l.length (by omega)]
    simpa using this
  · have hg : l[k]? = some l[k] := List.getElem?_eq_getElem hk
    rw [vget_of l _ k l[k] (by omega) hg, bind_ok]
    simp only [List.take_add_one, hg, List.flatMap_append]
    simp [pure_ok]

theorem Surface.save_binary {s : Surface F64} (h : s.Storable) :
    s.SaveToFile true = .ok (surfaceLine ++ ch '\n' :: surfaceBody s) := by
  unfold Surface.SaveToFile
  rw [if_pos rfl, writeKnots_ok h.knotsU, bind_ok, writeKnots_ok h.knotsV, bind_ok, h.gridCount, bind_ok,
    write_points, bind_ok]
  rfl

theorem Surface.reads_grid {s : Surface F64} (h : s.Storable) (junk : Vec4 F64) (o : Grid (Vec4 F64)) :
    Load.Reads (Surface.loadGrid junk) (intBytes s.ControlPoints.UCount ++ (intBytes s.ControlPoints.VCount ++
        s.ControlPoints.Values.flatMap WriteVec4ToStream)) o () s.ControlPoints := by
  unfold Surface.loadGrid
  refine (Load.reads_intMember _ _ h.uInt o).bind ?_
  refine (Load.reads_intMember _ _ h.vInt _).bind ?_
  rw [← List.nil_append (s.ControlPoints.Values.flatMap _)]
  refine (Load.reads_get _).bind ?_
  simp only
  rw [if_neg (by have := h.uPos; have := h.vPos; omega), ← List.nil_append (s.ControlPoints.Values.flatMap _)]
  refine (Load.reads_lift _ h.gridCount).bind ?_
  rw [Int.toNat_natCast, ← List.nil_append (s.ControlPoints.Values.flatMap _)]
  refine (Load.reads_modify _ _).bind ?_
  have := Load.reads_points junk (σ := Grid (Vec4 F64)) (fun c => c.Values) (fun l c => { c with Values := l })
    (fun _ _ => rfl) (fun _ _ _ => rfl) (fun _ => rfl) s.ControlPoints.Values []
    (resize o.Values s.ControlPoints.Values.length junk)
    ⟨s.ControlPoints.UCount, s.ControlPoints.VCount, resize o.Values s.ControlPoints.Values.length junk⟩
    rfl (resize_length _ _ _)
  rw [List.range_eq_range']
  exact this

theorem Surface.reads_binary {s : Surface F64} (h : s.Storable) (junk : Vec4 F64) (o : Surface F64) :
    Load.Reads (Surface.loadBinary junk) (surfaceBody s) o () s := by
  unfold Surface.loadBinary surfaceBody
  refine (Load.reads_intMember _ _ h.degreeU o).bind ?_
  refine (Load.reads_intMember _ _ h.degreeV _).bind ?_
  refine (Load.Reads.zoom _ _ (Load.reads_knots _ _ h.knotsU)).bind ?_
  refine (Load.Reads.zoom _ _ (Load.reads_knots _ _ h.knotsV)).bind ?_
  exact Load.Reads.zoom _ _ (Surface.reads_grid h junk _)

theorem Surface.reads_file {s : Surface F64} (h : s.Storable) (junk : Vec4 F64) (o : Surface F64) :
    Load.Reads (Surface.LoadFromFile junk) (surfaceLine ++ ch '\n' :: surfaceBody s) o () s := by
  unfold Surface.LoadFromFile
  exact Serial.reads_file (by decide) (by decide) (by decide) (by decide) (by decide +kernel)
    (Surface.reads_binary h junk o) (Load.bind_of_error (readIntMember_eof _ _ _))

end Nurbs
