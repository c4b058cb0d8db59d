import Verif.Proof.Sections
import Verif.Props.TextLayout

/-! # C112: the order of the sections of a text file -/

set_option linter.unusedSectionVars false

namespace Nurbs.Props

open Spec Serial Utils

/-- all lines of the sections -/
abbrev allLines (ss : List (Bytes × List Bytes)) : List Bytes := ss.flatMap fun s => s.2

theorem rearranged_symm {ss ss' : List (Bytes × List Bytes)} (h : Rearranged ss ss') : Rearranged ss' ss := fun k => (h k).symm

theorem rearranged_mem {ss ss' : List (Bytes × List Bytes)} (h : Rearranged ss ss') {s : Bytes × List Bytes} (hs : s ∈ ss') : s ∈ ss := by
  have : s ∈ ss'.filter (fun t => t.1 == s.1) := List.mem_filter.2 ⟨hs, by simp⟩
  rw [← h s.1] at this
  exact (List.mem_filter.1 this).1

theorem curve_sections_load {h : Bytes} (hh : CurveHeader h) {ss : List (Bytes × List Bytes)} (hs : ∀ s ∈ ss, IsSection s.1 s.2)
    (hn : ∀ x ∈ allLines ss, (10 : UInt8) ∉ x) (junk : Vec4 F64) (o : Curve F64) :
    Curve.LoadFromFile junk o ⟨h ++ 10 :: linesText (allLines ss), false⟩ = runSections Curve.processKey ss o ⟨[], true⟩ := by
  rw [curve_text_load hh, splitBy_linesText hn, sections_run ss {} hs fun _ => rfl]
  rfl

theorem surface_sections_load {h : Bytes} (hh : SurfaceHeader h) {ss : List (Bytes × List Bytes)} (hs : ∀ s ∈ ss, IsSection s.1 s.2)
    (hn : ∀ x ∈ allLines ss, (10 : UInt8) ∉ x) (junk : Vec4 F64) (o : Surface F64) :
    Surface.LoadFromFile junk o ⟨h ++ 10 :: linesText (allLines ss), false⟩ = runSections (Surface.processKey junk) ss o ⟨[], true⟩ := by
  rw [surface_text_load hh, splitBy_linesText hn, sections_run ss {} hs fun _ => rfl]
  rfl

/-- C112 (order, curves).  If the sections of a text file are put in another order (sections of the same name staying in theirs), the file is
accepted as before and gives the same curve. -/
theorem C112_order_curve {h : Bytes} (hh : CurveHeader h) {ss ss' : List (Bytes × List Bytes)} (hs : ∀ s ∈ ss, IsSection s.1 s.2)
    (hn : ∀ x ∈ allLines ss, (10 : UInt8) ∉ x) (hr : Rearranged ss ss') (junk : Vec4 F64) (o o' : Curve F64) (t : IStream) :
    Curve.LoadFromFile junk o ⟨h ++ 10 :: linesText (allLines ss), false⟩ = (.ok (), o', t) ↔
    Curve.LoadFromFile junk o ⟨h ++ 10 :: linesText (allLines ss'), false⟩ = (.ok (), o', t) := by
  have hs' : ∀ s ∈ ss', IsSection s.1 s.2 := fun s h => hs s (rearranged_mem hr h)
  have hn' : ∀ x ∈ allLines ss', (10 : UInt8) ∉ x := fun x hx => by
    obtain ⟨s, h1, h2⟩ := List.mem_flatMap.1 hx
    exact hn x (List.mem_flatMap.2 ⟨s, rearranged_mem hr h1, h2⟩)
  rw [curve_sections_load hh hs hn, curve_sections_load hh hs' hn']
  exact ⟨run_rearranged Curve.commute _ _ _ _ _ _ (rearranged_symm hr), run_rearranged Curve.commute _ _ _ _ _ _ hr⟩

/-- C112 (order, surfaces). -/
theorem C112_order_surface {h : Bytes} (hh : SurfaceHeader h) {ss ss' : List (Bytes × List Bytes)} (hs : ∀ s ∈ ss, IsSection s.1 s.2)
    (hn : ∀ x ∈ allLines ss, (10 : UInt8) ∉ x) (hr : Rearranged ss ss') (junk : Vec4 F64) (o o' : Surface F64) (t : IStream) :
    Surface.LoadFromFile junk o ⟨h ++ 10 :: linesText (allLines ss), false⟩ = (.ok (), o', t) ↔
    Surface.LoadFromFile junk o ⟨h ++ 10 :: linesText (allLines ss'), false⟩ = (.ok (), o', t) := by
  have hs' : ∀ s ∈ ss', IsSection s.1 s.2 := fun s h => hs s (rearranged_mem hr h)
  have hn' : ∀ x ∈ allLines ss', (10 : UInt8) ∉ x := fun x hx => by
    obtain ⟨s, h1, h2⟩ := List.mem_flatMap.1 hx
    exact hn x (List.mem_flatMap.2 ⟨s, rearranged_mem hr h1, h2⟩)
  rw [surface_sections_load hh hs hn, surface_sections_load hh hs' hn']
  exact ⟨run_rearranged (Surface.commute junk) _ _ _ _ _ _ (rearranged_symm hr), run_rearranged (Surface.commute junk) _ _ _ _ _ _ hr⟩

/-- C112 (missing sections, curves).  What a text file has no section for stays as it was, even if loading throws. -/
theorem C112_missing_curve {h : Bytes} (hh : CurveHeader h) {ss : List (Bytes × List Bytes)} (hs : ∀ s ∈ ss, IsSection s.1 s.2)
    (hn : ∀ x ∈ allLines ss, (10 : UInt8) ∉ x) (junk : Vec4 F64) (o : Curve F64) :
    ((∀ s ∈ ss, s.1 ≠ ascii ['D', 'e', 'g', 'r', 'e', 'e']) →
      (Curve.LoadFromFile junk o ⟨h ++ 10 :: linesText (allLines ss), false⟩).2.1.Degree = o.Degree) ∧
    ((∀ s ∈ ss, s.1 ≠ ascii ['K', 'n', 'o', 't', 's']) →
      (Curve.LoadFromFile junk o ⟨h ++ 10 :: linesText (allLines ss), false⟩).2.1.Knots = o.Knots) ∧
    ((∀ s ∈ ss, s.1 ≠ ascii ['C', 'o', 'n', 't', 'r', 'o', 'l', 'P', 'o', 'i', 'n', 't', 's']) →
      (Curve.LoadFromFile junk o ⟨h ++ 10 :: linesText (allLines ss), false⟩).2.1.ControlPoints = o.ControlPoints) := by
  rw [curve_sections_load hh hs hn]
  refine ⟨fun hk => run_keeps (f := fun c : Curve F64 => c.Degree) (fun k' ls hk' => ?_) ss hk o _,
    fun hk => run_keeps (f := fun c : Curve F64 => c.Knots) (fun k' ls hk' => ?_) ss hk o _,
    fun hk => run_keeps (f := fun c : Curve F64 => c.ControlPoints) (fun k' ls hk' => ?_) ss hk o _⟩ <;>
  · rcases Curve.processKey_cases k' ls with ⟨e, h1⟩ | ⟨e, h1⟩ | ⟨e, h1⟩ | h1 <;> rw [h1] <;>
      first
      | exact absurd e hk'
      | exact fun _ _ => rfl

/-- C112 (missing sections, surfaces). -/
theorem C112_missing_surface {h : Bytes} (hh : SurfaceHeader h) {ss : List (Bytes × List Bytes)} (hs : ∀ s ∈ ss, IsSection s.1 s.2)
    (hn : ∀ x ∈ allLines ss, (10 : UInt8) ∉ x) (junk : Vec4 F64) (o : Surface F64) :
    ((∀ s ∈ ss, s.1 ≠ ascii ['D', 'e', 'g', 'r', 'e', 'e', 'U']) →
      (Surface.LoadFromFile junk o ⟨h ++ 10 :: linesText (allLines ss), false⟩).2.1.DegreeU = o.DegreeU) ∧
    ((∀ s ∈ ss, s.1 ≠ ascii ['D', 'e', 'g', 'r', 'e', 'e', 'V']) →
      (Surface.LoadFromFile junk o ⟨h ++ 10 :: linesText (allLines ss), false⟩).2.1.DegreeV = o.DegreeV) ∧
    ((∀ s ∈ ss, s.1 ≠ ascii ['K', 'n', 'o', 't', 's', 'U']) →
      (Surface.LoadFromFile junk o ⟨h ++ 10 :: linesText (allLines ss), false⟩).2.1.KnotsU = o.KnotsU) ∧
    ((∀ s ∈ ss, s.1 ≠ ascii ['K', 'n', 'o', 't', 's', 'V']) →
      (Surface.LoadFromFile junk o ⟨h ++ 10 :: linesText (allLines ss), false⟩).2.1.KnotsV = o.KnotsV) ∧
    ((∀ s ∈ ss, s.1 ≠ ascii ['C', 'o', 'n', 't', 'r', 'o', 'l', 'P', 'o', 'i', 'n', 't', 's']) →
      (Surface.LoadFromFile junk o ⟨h ++ 10 :: linesText (allLines ss), false⟩).2.1.ControlPoints = o.ControlPoints) := by
  rw [surface_sections_load hh hs hn]
  refine ⟨fun hk => run_keeps (f := fun c : Surface F64 => c.DegreeU) (fun k' ls hk' => ?_) ss hk o _,
    fun hk => run_keeps (f := fun c : Surface F64 => c.DegreeV) (fun k' ls hk' => ?_) ss hk o _,
    fun hk => run_keeps (f := fun c : Surface F64 => c.KnotsU) (fun k' ls hk' => ?_) ss hk o _,
    fun hk => run_keeps (f := fun c : Surface F64 => c.KnotsV) (fun k' ls hk' => ?_) ss hk o _,
    fun hk => run_keeps (f := fun c : Surface F64 => c.ControlPoints) (fun k' ls hk' => ?_) ss hk o _⟩ <;>
  · rcases Surface.processKey_cases junk k' ls with ⟨e, h1⟩ | ⟨e, h1⟩ | ⟨e, h1⟩ | ⟨e, h1⟩ | ⟨e, h1⟩ | h1 <;> rw [h1] <;>
      first
      | exact absurd e hk'
      | exact fun _ _ => rfl

/-- C112 (repeated sections, curves).  Two sections of knots, or two of control points, one after the other count as one with the lines of
both. -/
theorem C112_repeated_curve {h : Bytes} (hh : CurveHeader h) {k : Bytes}
    (hk : k = ascii ['K', 'n', 'o', 't', 's'] ∨ k = ascii ['C', 'o', 'n', 't', 'r', 'o', 'l', 'P', 'o', 'i', 'n', 't', 's'])
    {ss₁ ss₂ : List (Bytes × List Bytes)} {ls mid : List Bytes} {x n v : Bytes} (hs₁ : ∀ s ∈ ss₁, IsSection s.1 s.2) (hs₂ : ∀ s ∈ ss₂, IsSection s.1 s.2)
    (hl : IsSection k ls) (hx : KeyLine x n v) (hxk : IsTrimmed n k) (hv : NoKey v) (hm : ∀ y ∈ mid, NoKey y)
    (hn : ∀ y ∈ allLines (ss₁ ++ (k, ls) :: (k, x :: mid) :: ss₂), (10 : UInt8) ∉ y) (junk : Vec4 F64) (o : Curve F64) :
    Curve.LoadFromFile junk o ⟨h ++ 10 :: linesText (allLines (ss₁ ++ (k, ls) :: (k, x :: mid) :: ss₂)), false⟩ =
    Curve.LoadFromFile junk o ⟨h ++ 10 :: linesText (allLines (ss₁ ++ (k, ls ++ v :: mid) :: ss₂)), false⟩ := by
  have hne : k ≠ [] := by rcases hk with rfl | rfl <;> decide
  obtain ⟨y, n', v', mid', rfl, hy, hyk, -, hm'⟩ := hl
  have hnv : (10 : UInt8) ∉ v := by
    obtain ⟨a, -, e, -⟩ := hx
    have := hn x (by simp)
    rw [e] at this
    simp only [List.mem_append, List.mem_cons, not_or] at this
    exact this.2.2.2.2
  rw [curve_sections_load hh (fun s hs => ?_) hn, curve_sections_load hh (fun s hs => ?_) (fun z hz => ?_)]
  · have hb : bodyLines (y :: mid' ++ v :: mid) = bodyLines (y :: mid') ++ bodyLines (x :: mid) := by
      obtain ⟨w, hw, hn, hval⟩ := trim_keyLine hx
      unfold bodyLines
      simp only [List.cons_append, hw, (scan_key hn).2, hval]
      rw [← List.filter_append]
      simp
    have hp : Curve.processKey k (bodyLines (y :: mid') ++ bodyLines (x :: mid)) =
        Curve.processKey k (bodyLines (y :: mid')) >>= fun _ => Curve.processKey k (bodyLines (x :: mid)) := by
      rcases hk with rfl | rfl
      · have e : ∀ ls, Curve.processKey (ascii ['K', 'n', 'o', 't', 's']) ls = Load.zoom (·.Knots) (fun k c => { c with Knots := k }) (readKnotLines ls) :=
          fun ls => by
            unfold Curve.processKey
            rw [ascii_eq, if_neg (by decide), if_pos rfl]
        rw [e, e, e]
        funext p s
        unfold readKnotLines
        rw [Load.forEach_append]
        change Load.zoom _ _ _ p s = Load.bind _ _ p s
        unfold Load.zoom Load.bind
        simp only
        generalize Load.forEach _ (bodyLines (y :: mid')) () p.Knots s = z
        obtain ⟨r | _, t, s'⟩ := z <;> rfl
      · rw [ascii_eq, Curve.processKey_points, Curve.processKey_points, Curve.processKey_points]
        funext p s
        unfold Curve.readPointLines
        rw [Load.forEach_append]
        change Load.zoom _ _ _ p s = Load.bind _ _ p s
        unfold Load.zoom Load.bind
        simp only
        generalize Load.forEach _ (bodyLines (y :: mid')) () p.ControlPoints s = z
        obtain ⟨r | _, t, s'⟩ := z <;> rfl
    unfold runSections
    rw [Load.forEach_append, Load.forEach_append]
    congr 1
    funext _
    simp only [Load.forEach]
    rw [hb, hp]
    exact (Load.bind_bind' _ _ _).symm
  · rcases List.mem_append.1 hs with h1 | h1
    · exact hs₁ s h1
    · rcases List.mem_cons.1 h1 with rfl | h1
      · refine ⟨y, n', v', mid' ++ v :: mid, rfl, hy, hyk, hne, fun z hz => ?_⟩
        rcases List.mem_append.1 hz with h2 | h2
        · exact hm' z h2
        · rcases List.mem_cons.1 h2 with rfl | h2
          · exact hv
          · exact hm z h2
      · exact hs₂ s h1
  · obtain ⟨s, h1, h2⟩ := List.mem_flatMap.1 hz
    rcases List.mem_append.1 h1 with h3 | h3
    · exact hn z (List.mem_flatMap.2 ⟨s, by simp [h3], h2⟩)
    · rcases List.mem_cons.1 h3 with rfl | h3
      · rcases List.mem_append.1 h2 with h4 | h4
        · exact hn z (List.mem_flatMap.2 ⟨(k, y :: mid'), by simp, h4⟩)
        · rcases List.mem_cons.1 h4 with rfl | h4
          · exact hnv
          · exact hn z (List.mem_flatMap.2 ⟨(k, x :: mid), by simp, by simp [h4]⟩)
      · exact hn z (List.mem_flatMap.2 ⟨s, by simp [h3], h2⟩)
  · rcases List.mem_append.1 hs with h1 | h1
    · exact hs₁ s h1
    · rcases List.mem_cons.1 h1 with rfl | h1
      · exact ⟨y, n', v', mid', rfl, hy, hyk, hne, hm'⟩
      · rcases List.mem_cons.1 h1 with rfl | h1
        · exact ⟨x, n, v, mid, rfl, hx, hxk, hne, hm⟩
        · exact hs₂ s h1

/-! ## Concrete cases -/

/-- a section of one line -/
theorem exSection (name value : Bytes) (h0 : name ≠ []) (hn : (58 : UInt8) ∉ name) (h1 : ∀ c ∈ name.head?, ¬ Space c) (h2 : ∀ c ∈ name.getLast?, ¬ Space c) :
    IsSection name [42 :: (name ++ 58 :: value)] :=
  ⟨_, name, value, [], rfl, exKey name value hn, ⟨[], [], by simp, by simp, by simp, h1, h2⟩, h0, by simp⟩

/-- knots, degree -/
def exOrder₁ : List (Bytes × List Bytes) := [(ascii "Knots".toList, [ascii "*Knots: 0, 1".toList]), (ascii "Degree".toList, [ascii "*Degree: 3".toList]),
  (ascii "Knots".toList, [ascii "*Knots: 2".toList])]
/-- degree, knots -/
def exOrder₂ : List (Bytes × List Bytes) := [(ascii "Degree".toList, [ascii "*Degree: 3".toList]), (ascii "Knots".toList, [ascii "*Knots: 0, 1".toList]),
  (ascii "Knots".toList, [ascii "*Knots: 2".toList])]

theorem exOrder_sections : ∀ s ∈ exOrder₁, IsSection s.1 s.2 := by
  intro s hs
  simp only [exOrder₁, List.mem_cons, List.not_mem_nil, or_false] at hs
  rcases hs with rfl | rfl | rfl
  · exact exSection (ascii "Knots".toList) (ascii " 0, 1".toList) (by decide) (by decide) (by unfold Space; decide) (by unfold Space; decide)
  · exact exSection (ascii "Degree".toList) (ascii " 3".toList) (by decide) (by decide) (by unfold Space; decide) (by unfold Space; decide)
  · exact exSection (ascii "Knots".toList) (ascii " 2".toList) (by decide) (by decide) (by unfold Space; decide) (by unfold Space; decide)

theorem exOrder_rearranged : Rearranged exOrder₁ exOrder₂ := by
  intro k
  by_cases h1 : ascii "Knots".toList = k
  · subst h1; decide
  · by_cases h2 : ascii "Degree".toList = k
    · subst h2; decide
    · have e1 : (ascii "Knots".toList == k) = false := by simpa using h1
      have e2 : (ascii "Degree".toList == k) = false := by simpa using h2
      simp only [exOrder₁, exOrder₂, List.filter, e1, e2]

example : Curve.LoadFromFile ⟨0, 0, 0, 0⟩ {} ⟨ascii "LIBNURBS TXT CURVE".toList ++ 10 :: linesText (allLines exOrder₂), false⟩ =
    (.ok (), ⟨3, ⟨[0, 0x3FF0000000000000, 0x4000000000000000]⟩, []⟩, ⟨[], true⟩) :=
  (C112_order_curve exHeader exOrder_sections (by decide) exOrder_rearranged _ _ _ _).1 (by decide +kernel)

/-- The same for a surface. -/
example : Surface.LoadFromFile ⟨0, 0, 0, 0⟩ {} ⟨ascii "LIBNURBS TXT SURFACE\n*DegreeV: 2\n*DegreeU: 1\n".toList, false⟩ =
    (.ok (), { DegreeU := 1, DegreeV := 2 }, ⟨[], true⟩) := by
  have hh : SurfaceHeader (ascii "LIBNURBS TXT SURFACE".toList) := by
    refine ⟨by decide, [], ascii [' '], ascii [' '], [], by decide, by simp, ?_, ?_, by decide, by decide, ?_, ?_, ?_, by simp⟩ <;> unfold Space <;> decide
  have hs : ∀ s ∈ [(ascii "DegreeU".toList, [ascii "*DegreeU: 1".toList]), (ascii "DegreeV".toList, [ascii "*DegreeV: 2".toList])], IsSection s.1 s.2 := by
    intro s hs
    simp only [List.mem_cons, List.not_mem_nil, or_false] at hs
    rcases hs with rfl | rfl
    · exact exSection (ascii "DegreeU".toList) (ascii " 1".toList) (by decide) (by decide) (by unfold Space; decide) (by unfold Space; decide)
    · exact exSection (ascii "DegreeV".toList) (ascii " 2".toList) (by decide) (by decide) (by unfold Space; decide) (by unfold Space; decide)
  refine (C112_order_surface hh (ss' := [(ascii "DegreeV".toList, [ascii "*DegreeV: 2".toList]), (ascii "DegreeU".toList, [ascii "*DegreeU: 1".toList])])
    hs (by decide) (fun k => ?_) ⟨0, 0, 0, 0⟩ {} { DegreeU := 1, DegreeV := 2 } ⟨[], true⟩).1 (by decide +kernel)
  by_cases h1 : ascii "DegreeU".toList = k
  · subst h1; decide
  · have e1 : (ascii "DegreeU".toList == k) = false := by simpa using h1
    simp only [List.filter, e1]

/-- No section for control points: the old ones stay. -/
example {h : Bytes} (hh : CurveHeader h) (junk : Vec4 F64) (o : Curve F64) :
    (Curve.LoadFromFile junk o ⟨h ++ 10 :: linesText (allLines exOrder₁), false⟩).2.1.ControlPoints = o.ControlPoints :=
  (C112_missing_curve hh exOrder_sections (by decide) junk o).2.2 (by decide)

/-- Two sections of knots. -/
example (o : Curve F64) : Curve.LoadFromFile ⟨0, 0, 0, 0⟩ o ⟨ascii "LIBNURBS TXT CURVE".toList ++ 10 ::
      linesText (allLines ([] ++ (ascii ['K', 'n', 'o', 't', 's'], [ascii "*Knots: 0, 1".toList]) :: (ascii ['K', 'n', 'o', 't', 's'], [ascii "*Knots: 2".toList]) :: [])), false⟩ =
    Curve.LoadFromFile ⟨0, 0, 0, 0⟩ o ⟨ascii "LIBNURBS TXT CURVE".toList ++ 10 ::
      linesText (allLines ([] ++ (ascii ['K', 'n', 'o', 't', 's'], [ascii "*Knots: 0, 1".toList] ++ [ascii " 2".toList]) :: [])), false⟩ :=
  C112_repeated_curve exHeader (.inl rfl) (ss₁ := []) (ss₂ := []) (mid := []) (by simp) (by simp)
    (exSection (ascii "Knots".toList) (ascii " 0, 1".toList) (by decide) (by decide) (by unfold Space; decide) (by unfold Space; decide))
    (exKey (ascii "Knots".toList) (ascii " 2".toList) (by decide)) ⟨[], [], by simp, by simp, by simp, by unfold Space; decide, by unfold Space; decide⟩
    (by rintro n v ⟨a, -, e, -⟩; have : (42 : UInt8) ∈ ascii " 2".toList := by rw [e]; simp
        revert this; decide) (by simp) (by decide) _ o

/-- Sections of the same name may not be exchanged. -/
example : ¬ Rearranged exOrder₁ exOrder₁.reverse := fun h => absurd (h (ascii "Knots".toList)) (by decide)

/-- If loading fails, what is left may depend on the order, so the statement is about accepted files. -/
example : (Curve.LoadFromFile ⟨0, 0, 0, 0⟩ {} ⟨ascii "LIBNURBS TXT CURVE\n*Degree: 3\n*Knots: x\n".toList, false⟩).2.1 ≠
    (Curve.LoadFromFile ⟨0, 0, 0, 0⟩ {} ⟨ascii "LIBNURBS TXT CURVE\n*Knots: x\n*Degree: 3\n".toList, false⟩).2.1 := by
  decide +kernel

end Nurbs.Props
