import Verif.Proof.SerialText

/-! # Text files as a whole -/

set_option linter.unusedSectionVars false

namespace Nurbs
open Serial Utils Load

namespace Serial
variable {σ : Type} {pk : Bytes → List Bytes → Load σ Unit} {st : TextState} {raw : Bytes} {o o' : σ}

theorem step_blank (h : TrimString raw = []) : Runs (textStep pk st raw) o st o := by
  unfold textStep
  simp only [h]
  exact runs_pure _ _

theorem step_line {line : Bytes} (h : TrimString raw = line) (hk : st.key ≠ [])
    (hh : ∃ c, line.head? = some c ∧ c ≠ ch '*') : Runs (textStep pk st raw) o ⟨st.key, st.lines ++ [line]⟩ o := by
  obtain ⟨c, hc, hc'⟩ := hh
  unfold textStep
  simp only [h]
  rw [if_neg (by rintro rfl; simp at hc), if_neg (by rw [hc]; simp [hc']), if_neg hk]
  exact runs_pure _ _

theorem step_first {name val k v : Bytes} (h : TrimString raw = ch '*' :: (name ++ ch ':' :: val)) (hn : ch ':' ∉ name)
    (hk : st.key = []) (hkn : TrimString name = k) (hv : TrimString val = v) :
    Runs (textStep pk st raw) o ⟨k, st.lines ++ if v = [] then [] else [v]⟩ o := by
  unfold textStep
  simp only [h, (scan_key hn).1, (scan_key hn).2, hkn, hv]
  rw [if_neg (by simp), if_pos (by simp), if_neg (by simpa using hk)]
  exact runs_pure _ _

theorem step_next {name val k v : Bytes} (h : TrimString raw = ch '*' :: (name ++ ch ':' :: val)) (hn : ch ':' ∉ name)
    (hk : st.key ≠ []) (hkn : TrimString name = k) (hv : TrimString val = v) (hp : Runs (pk st.key st.lines) o () o') :
    Runs (textStep pk st raw) o ⟨k, if v = [] then [] else [v]⟩ o' := by
  unfold textStep
  simp only [h, (scan_key hn).1, (scan_key hn).2, hkn, hv]
  rw [if_neg (by simp), if_pos (by simp), if_pos hk]
  exact hp.bind (runs_pure _ _)

theorem textLoop_runs {lines : List Bytes} {b : Bytes} (hb : splitBy (ch '\n') b = lines) {st : TextState} {o'' : σ}
    (h : Runs (Load.forEach (textStep pk) lines {}) o st o') (hk : st.key ≠ []) (hp : Runs (pk st.key st.lines) o' () o'') :
    textLoop pk o ⟨b, false⟩ = (.ok (), o'', ⟨[], true⟩) := by
  unfold textLoop
  simp only [Bool.false_eq_true, if_false, hb]
  refine Runs.bind h ?_ _
  rw [if_pos hk]
  exact hp

/-- Numbers separated by blanks keep their outer characters when trimmed. -/
theorem trim_num {a : Bytes} (h : ∀ c ∈ a, NumChar c) : TrimString a = a := trim_id' fun c hc => (h c hc).not_space

theorem vec4Text_chars {v : Vec4 F64} (hx : Spec.FiniteF64 v.x) (hy : Spec.FiniteF64 v.y) (hz : Spec.FiniteF64 v.z)
    (hw : Spec.FiniteF64 v.w) : ∀ c ∈ vec4Text v, NumChar c ∨ c = ch ' ' := by
  intro c hc
  unfold vec4Text at hc
  rcases List.mem_append.1 hc with hc | hc
  · exact .inl (fixedText_chars hx c hc)
  rcases List.mem_cons.1 hc with hc | hc
  · exact .inr hc
  rcases List.mem_append.1 hc with hc | hc
  · exact .inl (fixedText_chars hy c hc)
  rcases List.mem_cons.1 hc with hc | hc
  · exact .inr hc
  rcases List.mem_append.1 hc with hc | hc
  · exact .inl (fixedText_chars hz c hc)
  rcases List.mem_cons.1 hc with hc | hc
  · exact .inr hc
  · exact .inl (fixedText_chars hw c hc)

theorem vec4Text_head {v : Vec4 F64} (hx : Spec.FiniteF64 v.x) (r : Bytes) :
    ∃ c, (vec4Text v ++ r).head? = some c ∧ NumChar c := by
  cases hh : (fixedText v.x).head? with
  | none => exact (fixedText_ne hx (List.head?_eq_none_iff.1 hh)).elim
  | some c =>
    refine ⟨c, ?_, fixedText_chars hx c (List.mem_of_mem_head? hh)⟩
    unfold vec4Text
    rw [List.append_assoc, List.head?_append, hh]; rfl

theorem vec4Text_last {v : Vec4 F64} (hw : Spec.FiniteF64 v.w) :
    ∃ c, (vec4Text v).getLast? = some c ∧ NumChar c := by
  cases hh : (fixedText v.w).getLast? with
  | none => exact (fixedText_ne hw (List.getLast?_eq_none_iff.1 hh)).elim
  | some c =>
    refine ⟨c, ?_, fixedText_chars hw c (List.mem_of_getLast? hh)⟩
    have e : vec4Text v = (fixedText v.x ++ (ch ' ' :: (fixedText v.y ++ (ch ' ' :: (fixedText v.z ++ [ch ' ']))))) ++
        fixedText v.w := by simp [vec4Text]
    rw [e, List.getLast?_append, hh]; rfl

/-- A point whose four entries survive. -/
def SurvivesPt (v : Vec4 F64) : Prop :=
  ReadsBack v.x ∧ ReadsBack v.y ∧ ReadsBack v.z ∧ ReadsBack v.w

theorem SurvivesPt.chars {v : Vec4 F64} (h : SurvivesPt v) : ∀ c ∈ vec4Text v, NumChar c ∨ c = ch ' ' :=
  vec4Text_chars h.1.1 h.2.1.1 h.2.2.1.1 h.2.2.2.1

theorem SurvivesPt.not_mem {v : Vec4 F64} (h : SurvivesPt v) : ch ',' ∉ vec4Text v ∧ ch '\n' ∉ vec4Text v := by
  constructor
  · intro hc
    rcases h.chars _ hc with h | h
    · exact h.ne.1 rfl
    · exact absurd h (by decide)
  · intro hc
    rcases h.chars _ hc with h | h
    · exact h.ne.2.1 rfl
    · exact absurd h (by decide)

theorem SurvivesPt.trim {v : Vec4 F64} (h : SurvivesPt v) : TrimString (vec4Text v) = vec4Text v := by
  obtain ⟨c, hc, hc'⟩ := vec4Text_head h.1.1 []
  rw [List.append_nil] at hc
  obtain ⟨d, hd, hd'⟩ := vec4Text_last h.2.2.2.1
  refine trim_id ?_ ?_
  · intro b hb
    rw [hc, Option.mem_some_iff] at hb
    exact hb ▸ hc'.not_space
  · intro b hb
    rw [hd, Option.mem_some_iff] at hb
    exact hb ▸ hd'.not_space

theorem SurvivesPt.ne {v : Vec4 F64} (h : SurvivesPt v) : vec4Text v ≠ [] := by
  intro e
  obtain ⟨c, hc, -⟩ := vec4Text_head h.1.1 []
  rw [e] at hc
  simp at hc

theorem SurvivesPt.read {v : Vec4 F64} (h : SurvivesPt v) : ReadVec4FromText (vec4Text v) = .ok v :=
  readVec4_text h.1 h.2.1 h.2.2.1 h.2.2.2

theorem SurvivesPt.trim_comma {v : Vec4 F64} (h : SurvivesPt v) :
    TrimString (vec4Text v ++ [ch ',']) = vec4Text v ++ [ch ','] := by
  obtain ⟨c, hc, hc'⟩ := vec4Text_head h.1.1 [ch ',']
  refine trim_id ?_ ?_
  · intro b hb
    rw [hc, Option.mem_some_iff] at hb
    exact hb ▸ hc'.not_space
  · intro b hb
    rw [List.getLast?_append] at hb
    simp at hb
    subst hb
    decide

theorem splitBy_points {suf : Bytes} (hsuf : ch '\n' ∉ suf) (l : List (Vec4 F64)) (h : ∀ v ∈ l, SurvivesPt v) :
    splitBy (ch '\n') (l.flatMap fun v => vec4Text v ++ (suf ++ [ch '\n'])) = l.map fun v => vec4Text v ++ suf := by
  induction l with
  | nil => rfl
  | cons v l ih =>
    rw [List.flatMap_cons, List.map_cons, ← ih fun w hw => h w (List.mem_cons_of_mem _ hw)]
    have : vec4Text v ++ (suf ++ [ch '\n']) ++ List.flatMap (fun v => vec4Text v ++ (suf ++ [ch '\n'])) l =
      (vec4Text v ++ suf) ++ ch '\n' :: List.flatMap (fun v => vec4Text v ++ (suf ++ [ch '\n'])) l := by simp
    rw [this, splitBy_line]
    rw [List.mem_append, not_or]
    exact ⟨(h v (by simp)).not_mem.2, hsuf⟩

theorem numText_line {a : Bytes} (h : ∀ c ∈ a, NumChar c) : ch '\n' ∉ a := fun hc => (h _ hc).ne.2.1 rfl

theorem knots_line {l : List F64} (h : ∀ y ∈ l, Spec.FiniteF64 y) : ch '\n' ∉ knotsText l := fun hc => by
  rcases knotsText_chars h _ hc with h | h | h
  · exact h.ne.2.1 rfl
  · exact absurd h (by decide)
  · exact absurd h (by decide)

/-- A line of knots, empty or not. -/
theorem step_knots {l : List F64} (h : ∀ y ∈ l, Spec.FiniteF64 y) {key : Bytes} (hk : key ≠ []) :
    Runs (textStep pk ⟨key, []⟩ (knotsText l)) o ⟨key, knotLines l⟩ o := by
  unfold knotLines
  by_cases hl : l = []
  · subst hl
    exact step_blank rfl
  · rw [if_neg hl]
    obtain ⟨⟨c, hc, hc'⟩, -⟩ := knotsText_ends h hl
    exact step_line (trim_knots h) hk ⟨c, hc, hc'.ne.2.2.1⟩

/-- A line `*Name: n`. -/
theorem trim_intLine (name : Bytes) (n : ℤ) :
    TrimString (ch '*' :: (name ++ ch ':' :: (ch ' ' :: intText n))) = ch '*' :: (name ++ ch ':' :: (ch ' ' :: intText n)) := by
  refine trim_id ?_ ?_
  · intro c hc
    simp at hc
    subst hc
    decide
  · intro c hc
    have hl : (intText n).getLast? ≠ none := fun e => intText_ne n (List.getLast?_eq_none_iff.1 e)
    cases hh : (intText n).getLast? with
    | none => exact (hl hh).elim
    | some d =>
      have e : ch '*' :: (name ++ ch ':' :: (ch ' ' :: intText n)) = (ch '*' :: (name ++ [ch ':', ch ' '])) ++ intText n := by
        simp
      rw [e, List.getLast?_append, hh] at hc
      simp at hc
      subst hc
      exact (intText_chars n d (List.mem_of_getLast? hh)).not_space

theorem trim_intValue (n : ℤ) : TrimString (ch ' ' :: intText n) = intText n :=
  trim_of (a := [ch ' ']) (b := []) (by simp) (by decide) (by simp)
    (fun c hc => (intText_chars n c (List.mem_of_mem_head? hc)).not_space)
    (fun c hc => (intText_chars n c (List.mem_of_getLast? hc)).not_space)

theorem runs_intLine {n : ℤ} (h : IsInt n) (old : ℤ) : Runs (readIntLine [intText n]) old () n := fun s => by
  unfold readIntLine
  have := extractInt_text h old (pre := []) (rest := []) (by simp) (by simp)
  rw [List.nil_append, List.append_nil] at this
  simp only [this, if_true]

theorem lit_ne (c : Char) (cs : List Char) : lit (c :: cs) ≠ [] := by simp [lit]

/-- Lines of points, collected by the text loop. -/
theorem step_points {suf : Bytes} (hsuf : ∀ v, SurvivesPt v → TrimString (vec4Text v ++ suf) = vec4Text v ++ suf)
    {key : Bytes} (hk : key ≠ []) (l : List (Vec4 F64)) (h : ∀ v ∈ l, SurvivesPt v) : ∀ (ls : List Bytes),
      Runs (Load.forEach (textStep pk) (l.map fun v => vec4Text v ++ suf) ⟨key, ls⟩) o
        ⟨key, ls ++ l.map fun v => vec4Text v ++ suf⟩ o := by
  induction l with
  | nil => intro ls; rw [List.map_nil, List.append_nil]; exact runs_nil _ _ _
  | cons v l ih =>
    intro ls
    rw [List.map_cons]
    obtain ⟨c, hc, hc'⟩ := vec4Text_head (h v (by simp)).1.1 suf
    refine Runs.cons (step_line (hsuf v (h v (by simp))) hk ⟨c, hc, hc'.ne.2.2.1⟩) ?_
    have := ih (fun w hw => h w (List.mem_cons_of_mem _ hw)) (ls ++ [vec4Text v ++ suf])
    rwa [List.append_assoc, List.singleton_append] at this

end Serial

/-! ## Curves -/

/-- What the text of a curve must satisfy to be read back. -/
structure Curve.Survives (c : Curve F64) : Prop where
  degree : IsInt c.Degree
  knots : ∀ x ∈ c.Knots.Values, ReadsBack x
  points : ∀ v ∈ c.ControlPoints, SurvivesPt v

/-- The lines of a text curve after the header. -/
def curveLines (c : Curve F64) : List Bytes :=
  (ch '*' :: (lit ['D', 'e', 'g', 'r', 'e', 'e'] ++ ch ':' :: (ch ' ' :: intText c.Degree))) ::
    (ch '*' :: (lit ['K', 'n', 'o', 't', 's'] ++ ch ':' :: [])) :: knotsText c.Knots.Values ::
    (ch '*' :: (lit ['C', 'o', 'n', 't', 'r', 'o', 'l', 'P', 'o', 'i', 'n', 't', 's'] ++ ch ':' :: [])) ::
    c.ControlPoints.map fun v => vec4Text v ++ [ch ',']

/-- The text of a curve after the header. -/
def curveText (c : Curve F64) : Bytes :=
  lit ['*', 'D', 'e', 'g', 'r', 'e', 'e', ':', ' '] ++ (intText c.Degree ++ (ch '\n' ::
      (lit ['*', 'K', 'n', 'o', 't', 's', ':', '\n'] ++ (knotsText c.Knots.Values ++ (ch '\n' ::
      (lit ['*', 'C', 'o', 'n', 't', 'r', 'o', 'l', 'P', 'o', 'i', 'n', 't', 's', ':', '\n'] ++
      c.ControlPoints.flatMap fun v => vec4Text v ++ lit [',', '\n']))))))

theorem Curve.save_text (c : Curve F64) : c.SaveToFile false =
    .ok ((LIBNURBS_MAGIC ++ lit [' ', 'T', 'X', 'T', ' ', 'C', 'U', 'R', 'V', 'E']) ++ ch '\n' :: curveText c) := rfl

theorem splitBy_curveText {c : Curve F64} (h : c.Survives) : splitBy (ch '\n') (curveText c) = curveLines c := by
  have e : curveText c = (lit ['*', 'D', 'e', 'g', 'r', 'e', 'e', ':', ' '] ++ intText c.Degree) ++ ch '\n' ::
      (lit ['*', 'K', 'n', 'o', 't', 's', ':'] ++ ch '\n' :: (knotsText c.Knots.Values ++ ch '\n' ::
        (lit ['*', 'C', 'o', 'n', 't', 'r', 'o', 'l', 'P', 'o', 'i', 'n', 't', 's', ':'] ++ ch '\n' ::
          (c.ControlPoints.flatMap fun v => vec4Text v ++ ([ch ','] ++ [ch '\n']))))) := by
    unfold curveText
    rw [List.append_assoc]
    rfl
  rw [e, splitBy_line, splitBy_line (by decide), splitBy_line (knots_line fun y hy => (h.knots y hy).1),
    splitBy_line (by decide), splitBy_points (by decide) _ h.points]
  · rfl
  · rw [List.mem_append, not_or]
    exact ⟨by decide, numText_line (intText_chars _)⟩

theorem Curve.runs_points (l : List (Vec4 F64)) (h : ∀ v ∈ l, SurvivesPt v) (o : Curve F64) :
    Runs (Curve.processKey (lit ['C', 'o', 'n', 't', 'r', 'o', 'l', 'P', 'o', 'i', 'n', 't', 's'])
      (l.map fun v => vec4Text v ++ [ch ','])) o () { o with ControlPoints := o.ControlPoints ++ l } := by
  unfold Curve.processKey
  rw [if_neg (by decide), if_neg (by decide), if_pos rfl]
  induction l generalizing o with
  | nil => rw [List.append_nil]; exact runs_nil _ _ _
  | cons v l ih =>
    have hv := h v (by simp)
    rw [List.map_cons]
    refine Runs.cons (b' := ()) (o' := { o with ControlPoints := o.ControlPoints ++ [v] }) ?_ ?_
    · rw [splitBy_line hv.not_mem.1]
      refine Runs.cons ?_ (runs_nil _ _ _)
      simp only [hv.trim]
      rw [if_neg hv.ne]
      exact (runs_lift hv.read o).bind (runs_modify _ _)
    · have := ih (fun w hw => h w (List.mem_cons_of_mem _ hw)) { o with ControlPoints := o.ControlPoints ++ [v] }
      simpa only [List.append_assoc, List.singleton_append] using this

/-- The lines of a text curve before the points. -/
def curveHead (c : Curve F64) : List Bytes :=
  (ch '*' :: (lit ['D', 'e', 'g', 'r', 'e', 'e'] ++ ch ':' :: (ch ' ' :: intText c.Degree))) ::
    (ch '*' :: (lit ['K', 'n', 'o', 't', 's'] ++ ch ':' :: [])) :: knotsText c.Knots.Values ::
    (ch '*' :: (lit ['C', 'o', 'n', 't', 'r', 'o', 'l', 'P', 'o', 'i', 'n', 't', 's'] ++ ch ':' :: [])) :: []

theorem Curve.runs_head {c : Curve F64} (h : c.Survives) (o : Curve F64) :
    Runs (Load.forEach (textStep Curve.processKey) (curveHead c) {}) o
      ⟨lit ['C', 'o', 'n', 't', 'r', 'o', 'l', 'P', 'o', 'i', 'n', 't', 's'], []⟩
      ⟨c.Degree, ⟨o.Knots.Values ++ c.Knots.Values⟩, o.ControlPoints⟩ := by
  unfold curveHead
  refine Runs.cons (step_first (trim_intLine _ _) (by decide) rfl (k := lit ['D', 'e', 'g', 'r', 'e', 'e']) (by decide)
    (trim_intValue _)) ?_
  rw [if_neg (intText_ne _), List.nil_append]
  refine Runs.cons (step_next (name := lit ['K', 'n', 'o', 't', 's']) (val := []) (k := lit ['K', 'n', 'o', 't', 's']) (v := [])
      (by decide) (by decide) (lit_ne _ _) (by decide) rfl (o' := { o with Degree := c.Degree }) ?_) ?_
  · unfold Curve.processKey; dsimp only
    rw [if_pos rfl]
    exact Runs.zoom _ _ (runs_intLine h.degree _)
  refine Runs.cons (step_knots (fun y hy => (h.knots y hy).1) (by decide)) ?_
  refine Runs.cons (step_next (name := lit ['C', 'o', 'n', 't', 'r', 'o', 'l', 'P', 'o', 'i', 'n', 't', 's']) (val := []) (k := lit ['C', 'o', 'n', 't', 'r', 'o', 'l', 'P', 'o', 'i', 'n', 't', 's']) (v := [])
      (by decide) (by decide) (lit_ne _ _) (by decide) rfl
    (o' := ⟨c.Degree, ⟨o.Knots.Values ++ c.Knots.Values⟩, o.ControlPoints⟩) ?_) ?_
  · unfold Curve.processKey; dsimp only
    rw [if_neg (by decide), if_pos rfl]
    exact Runs.zoom _ _ (runs_knotLines _ h.knots _)
  exact runs_nil _ _ _

theorem Curve.load_text {c : Curve F64} (h : c.Survives) (junk : Vec4 F64) (o : Curve F64) :
    Curve.LoadFromFile junk o ⟨(LIBNURBS_MAGIC ++ lit [' ', 'T', 'X', 'T', ' ', 'C', 'U', 'R', 'V', 'E']) ++
      ch '\n' :: curveText c, false⟩ =
      (.ok (), ⟨c.Degree, ⟨o.Knots.Values ++ c.Knots.Values⟩, o.ControlPoints ++ c.ControlPoints⟩, ⟨[], true⟩) := by
  unfold Curve.LoadFromFile
  rw [bind_of_ok (readHeader_ok (b := false) (by decide) (by decide) (by decide) (by decide) o (curveText c)),
    if_neg (by decide)]
  refine textLoop_runs (splitBy_curveText h) (o' := ⟨c.Degree, ⟨o.Knots.Values ++ c.Knots.Values⟩, o.ControlPoints⟩)
    (st := ⟨lit ['C', 'o', 'n', 't', 'r', 'o', 'l', 'P', 'o', 'i', 'n', 't', 's'],
      c.ControlPoints.map fun v => vec4Text v ++ [ch ',']⟩) ?_ (lit_ne _ _) (Curve.runs_points _ h.points _)
  show Runs (Load.forEach _ (curveHead c ++ _) _) _ _ _
  refine (Curve.runs_head h o).append ?_
  exact step_points (fun v hv => hv.trim_comma) (by decide) _ h.points []

/-! ## Surfaces -/

/-- What the text of a surface must satisfy to be read back. -/
structure Surface.Survives (s : Surface F64) : Prop where
  degreeU : IsInt s.DegreeU
  degreeV : IsInt s.DegreeV
  knotsU : ∀ x ∈ s.KnotsU.Values, ReadsBack x
  knotsV : ∀ x ∈ s.KnotsV.Values, ReadsBack x
  uPos : 0 < s.ControlPoints.UCount
  vPos : 0 < s.ControlPoints.VCount
  count : s.ControlPoints.UCount * s.ControlPoints.VCount < 2 ^ 31
  storage : (s.ControlPoints.Values.length : ℤ) = s.ControlPoints.UCount * s.ControlPoints.VCount
  points : ∀ v ∈ s.ControlPoints.Values, SurvivesPt v

/-- The part of `Survives` that does not mention the number of points. -/
structure Surface.TextOk (s : Surface F64) : Prop where
  degreeU : IsInt s.DegreeU
  degreeV : IsInt s.DegreeV
  knotsU : ∀ x ∈ s.KnotsU.Values, ReadsBack x
  knotsV : ∀ x ∈ s.KnotsV.Values, ReadsBack x
  points : ∀ v ∈ s.ControlPoints.Values, SurvivesPt v

theorem Surface.Survives.textOk {s : Surface F64} (h : s.Survives) : s.TextOk :=
  ⟨h.degreeU, h.degreeV, h.knotsU, h.knotsV, h.points⟩

theorem Surface.Survives.uInt {s : Surface F64} (h : s.Survives) : IsInt s.ControlPoints.UCount := by
  have := h.uPos; have := h.vPos; have := h.count
  exact ⟨by omega, by nlinarith⟩

theorem Surface.Survives.vInt {s : Surface F64} (h : s.Survives) : IsInt s.ControlPoints.VCount := by
  have := h.uPos; have := h.vPos; have := h.count
  exact ⟨by omega, by nlinarith⟩

theorem Surface.Survives.gridCount {s : Surface F64} (h : s.Survives) :
    Surface.gridCount s.ControlPoints.UCount s.ControlPoints.VCount = .ok (s.ControlPoints.Values.length : ℤ) := by
  unfold Surface.gridCount
  rw [← h.storage, if_pos ⟨by omega, by rw [h.storage]; exact h.count⟩]

/-- The lines of a text surface after the header. -/
def surfaceLines (s : Surface F64) : List Bytes :=
  (ch '*' :: (lit ['D', 'e', 'g', 'r', 'e', 'e', 'U'] ++ ch ':' :: (ch ' ' :: intText s.DegreeU))) ::
    (ch '*' :: (lit ['D', 'e', 'g', 'r', 'e', 'e', 'V'] ++ ch ':' :: (ch ' ' :: intText s.DegreeV))) ::
    (ch '*' :: (lit ['K', 'n', 'o', 't', 's', 'U'] ++ ch ':' :: [])) :: knotsText s.KnotsU.Values ::
    (ch '*' :: (lit ['K', 'n', 'o', 't', 's', 'V'] ++ ch ':' :: [])) :: knotsText s.KnotsV.Values ::
    (ch '*' :: (lit ['C', 'o', 'n', 't', 'r', 'o', 'l', 'P', 'o', 'i', 'n', 't', 's'] ++ ch ':' :: [])) ::
    (intText s.ControlPoints.UCount ++ ch ' ' :: intText s.ControlPoints.VCount) ::
    s.ControlPoints.Values.map fun v => vec4Text v ++ []

/-- The text of a surface after the header. -/
def surfaceText (s : Surface F64) : Bytes :=
  lit ['*', 'D', 'e', 'g', 'r', 'e', 'e', 'U', ':', ' '] ++ (intText s.DegreeU ++ (ch '\n' ::
      (lit ['*', 'D', 'e', 'g', 'r', 'e', 'e', 'V', ':', ' '] ++ (intText s.DegreeV ++ (ch '\n' ::
      (lit ['*', 'K', 'n', 'o', 't', 's', 'U', ':', '\n'] ++ (knotsText s.KnotsU.Values ++ (ch '\n' ::
      (lit ['*', 'K', 'n', 'o', 't', 's', 'V', ':', '\n'] ++ (knotsText s.KnotsV.Values ++ (ch '\n' ::
      (lit ['*', 'C', 'o', 'n', 't', 'r', 'o', 'l', 'P', 'o', 'i', 'n', 't', 's', ':', '\n'] ++
      (intText s.ControlPoints.UCount ++ (ch ' ' :: (intText s.ControlPoints.VCount ++ (ch '\n' ::
      s.ControlPoints.Values.flatMap fun v => vec4Text v ++ [ch '\n']))))))))))))))))

theorem write_rows (g : Grid (Vec4 F64)) (m n : ℕ) (hu : g.UCount = m) (hv : g.VCount = n) (hl : g.Values.length = m * n) :
    forLt 0 g.VCount (fun v os => forLt 0 g.UCount (fun u (os : Bytes) => do
        return os ++ (vec4Text (← g.Get u v) ++ [ch '\n'])) os) [] =
      .ok (g.Values.flatMap fun v => vec4Text v ++ [ch '\n']) := by
  set W : ℕ → Bytes := fun k => (g.Values.take k).flatMap fun v => vec4Text v ++ [ch '\n'] with hW
  rw [hu, hv, forLt_eq_forUp 0 _ n (by omega)]
  have houter := forUp_eq (fun v (os : Bytes) => forLt 0 (m : ℤ) (fun u (os : Bytes) => (do
        return os ++ (vec4Text (← g.Get u v) ++ [ch '\n']) : M Bytes)) os) (fun j => W (j * m)) n 0 ?_
  · rw [Nat.zero_mul] at houter
    refine houter.trans ?_
    simp only [hW]
    rw [List.take_of_length_le (by rw [hl, mul_comm])]
  intro j hj
  simp only [zero_add]
  rw [forLt_eq_forUp 0 _ m (by omega)]
  have hinner := forUp_eq (fun u (os : Bytes) => (do
        return os ++ (vec4Text (← g.Get u (j : ℤ)) ++ [ch '\n']) : M Bytes)) (fun i => W (j * m + i)) m 0 ?_
  · rw [Nat.add_zero] at hinner
    rw [hinner, show j * m + m = (j + 1) * m by ring]
  intro i hi
  have hk : j * m + i < g.Values.length := by
    rw [hl]
    calc j * m + i < j * m + m := by omega
      _ = (j + 1) * m := by ring
      _ ≤ n * m := Nat.mul_le_mul_right _ hj
      _ = m * n := mul_comm _ _
  have hg : g.Values[j * m + i]? = some g.Values[j * m + i] := List.getElem?_eq_getElem hk
  have hget : g.Get (0 + (i : ℤ)) (j : ℤ) = .ok g.Values[j * m + i] := by
    unfold Grid.Get
    rw [massert_true (by rw [hu, hv]; omega), bind_ok, hu]
    exact vget_of _ _ (j * m + i) _ (by push_cast; ring) hg
  rw [hget, bind_ok]
  simp only [hW, pure_ok, ← Nat.add_assoc]
  rw [List.take_add_one, hg, List.flatMap_append]
  simp

theorem Surface.save_text' {s : Surface F64} (hu : 0 < s.ControlPoints.UCount) (hv : 0 < s.ControlPoints.VCount)
    (hl : (s.ControlPoints.Values.length : ℤ) = s.ControlPoints.UCount * s.ControlPoints.VCount) : s.SaveToFile false =
    .ok ((LIBNURBS_MAGIC ++ lit [' ', 'T', 'X', 'T', ' ', 'S', 'U', 'R', 'F', 'A', 'C', 'E']) ++ ch '\n' :: surfaceText s) := by
  obtain ⟨m, hm⟩ := Int.eq_ofNat_of_zero_le hu.le
  obtain ⟨n, hn⟩ := Int.eq_ofNat_of_zero_le hv.le
  unfold Surface.SaveToFile
  rw [if_neg (by decide), write_rows s.ControlPoints m n hm hn (by rw [hm, hn] at hl; exact_mod_cast hl), bind_ok]
  rfl

theorem Surface.save_text {s : Surface F64} (h : s.Survives) : s.SaveToFile false =
    .ok ((LIBNURBS_MAGIC ++ lit [' ', 'T', 'X', 'T', ' ', 'S', 'U', 'R', 'F', 'A', 'C', 'E']) ++ ch '\n' :: surfaceText s) :=
  Surface.save_text' h.uPos h.vPos h.storage

theorem splitBy_surfaceText {s : Surface F64} (h : s.TextOk) : splitBy (ch '\n') (surfaceText s) = surfaceLines s := by
  have e : surfaceText s = (lit ['*', 'D', 'e', 'g', 'r', 'e', 'e', 'U', ':', ' '] ++ intText s.DegreeU) ++ ch '\n' ::
      ((lit ['*', 'D', 'e', 'g', 'r', 'e', 'e', 'V', ':', ' '] ++ intText s.DegreeV) ++ ch '\n' ::
      (lit ['*', 'K', 'n', 'o', 't', 's', 'U', ':'] ++ ch '\n' :: (knotsText s.KnotsU.Values ++ ch '\n' ::
      (lit ['*', 'K', 'n', 'o', 't', 's', 'V', ':'] ++ ch '\n' :: (knotsText s.KnotsV.Values ++ ch '\n' ::
        (lit ['*', 'C', 'o', 'n', 't', 'r', 'o', 'l', 'P', 'o', 'i', 'n', 't', 's', ':'] ++ ch '\n' ::
        ((intText s.ControlPoints.UCount ++ ch ' ' :: intText s.ControlPoints.VCount) ++ ch '\n' ::
          (s.ControlPoints.Values.flatMap fun v => vec4Text v ++ ([] ++ [ch '\n']))))))))) := by
    unfold surfaceText
    simp only [List.append_assoc, List.cons_append]
    rfl
  rw [e, splitBy_line, splitBy_line, splitBy_line (by decide), splitBy_line (knots_line fun y hy => (h.knotsU y hy).1),
    splitBy_line (by decide), splitBy_line (knots_line fun y hy => (h.knotsV y hy).1),
    splitBy_line (by decide), splitBy_line, splitBy_points (by simp) _ h.points]
  · rfl
  · rw [List.mem_append, not_or, List.mem_cons, not_or]
    exact ⟨numText_line (intText_chars _), by decide, numText_line (intText_chars _)⟩
  · rw [List.mem_append, not_or]
    exact ⟨by decide, numText_line (intText_chars _)⟩
  · rw [List.mem_append, not_or]
    exact ⟨by decide, numText_line (intText_chars _)⟩

theorem intText_head (n : ℤ) (r : Bytes) : ∃ c, (intText n ++ r).head? = some c ∧ NumChar c := by
  cases hh : (intText n).head? with
  | none => exact (intText_ne n (List.head?_eq_none_iff.1 hh)).elim
  | some c =>
    refine ⟨c, ?_, intText_chars n c (List.mem_of_mem_head? hh)⟩
    rw [List.head?_append, hh]; rfl

theorem trim_dims (m n : ℤ) : TrimString (intText m ++ ch ' ' :: intText n) = intText m ++ ch ' ' :: intText n := by
  obtain ⟨c, hc, hc'⟩ := intText_head m (ch ' ' :: intText n)
  refine trim_id ?_ ?_
  · intro b hb
    rw [hc, Option.mem_some_iff] at hb
    exact hb ▸ hc'.not_space
  · intro b hb
    cases hh : (intText n).getLast? with
    | none => exact (intText_ne n (List.getLast?_eq_none_iff.1 hh)).elim
    | some d =>
      rw [show intText m ++ ch ' ' :: intText n = (intText m ++ [ch ' ']) ++ intText n by simp, List.getLast?_append, hh] at hb
      simp at hb
      subst hb
      exact (intText_chars n d (List.mem_of_getLast? hh)).not_space

/-- The loop over the lines of points. -/
theorem Surface.runs_pointLines (vs : List (Vec4 F64)) (h : ∀ v ∈ vs, SurvivesPt v) :
    ∀ (done rest : List (Vec4 F64)) (u v : ℤ), rest.length = vs.length →
      Runs (σ := Grid (Vec4 F64)) (Load.forEach (fun (i : Nat) l =>
        let t := TrimString l
        if t = [] then pure (i + 1)
        else do
          let v ← Load.lift (ReadVec4FromText t)
          Load.modify fun g => { g with Values := g.Values.set i v }
          pure (i + 1)) (vs.map fun v => vec4Text v ++ []) done.length) ⟨u, v, done ++ rest⟩ (done.length + vs.length)
        ⟨u, v, done ++ vs⟩ := by
  induction vs with
  | nil =>
    intro done rest u v hr
    have : rest = [] := List.length_eq_zero_iff.1 hr
    subst this
    exact runs_nil _ _ _
  | cons w vs ih =>
    intro done rest u v hr
    obtain _ | ⟨r, rest⟩ := rest
    · simp at hr
    have hw := h w (by simp)
    rw [List.map_cons]
    refine Runs.cons (b' := done.length + 1) (o' := ⟨u, v, done ++ (w :: rest)⟩) ?_ ?_
    · simp only [List.append_nil, hw.trim]
      rw [if_neg hw.ne]
      refine (runs_lift hw.read _).bind ((runs_modify _ _).bind ?_)
      simp only [List.set_append_right _ _ le_rfl, Nat.sub_self, List.set_cons_zero]
      exact runs_pure _ _
    · have := ih (fun x hx => h x (List.mem_cons_of_mem _ hx)) (done ++ [w]) rest u v (by simpa using hr)
      simp only [List.length_append, List.length_cons, List.length_nil, zero_add, List.append_assoc,
        List.singleton_append] at this
      rw [List.length_cons, add_comm vs.length 1, ← add_assoc]
      exact this

theorem Surface.runs_dims {s : Surface F64} (h : s.Survives) (o : Grid (Vec4 F64)) :
    Runs (Surface.readDims (intText s.ControlPoints.UCount ++ ch ' ' :: intText s.ControlPoints.VCount)) o ()
      ⟨s.ControlPoints.UCount, s.ControlPoints.VCount, o.Values⟩ := by
  intro st
  unfold Surface.readDims
  have e1 := extractInt_text h.uInt o.UCount (pre := []) (rest := ch ' ' :: intText s.ControlPoints.VCount) (by simp)
    (by intro c hc; simp at hc; subst hc; decide)
  have e2 := extractInt_text h.vInt o.VCount (pre := [ch ' ']) (rest := []) (by decide) (by simp)
  rw [List.nil_append] at e1
  rw [List.append_nil, List.singleton_append] at e2
  rw [e1]
  simp only [if_true]
  rw [e2]
  simp only [true_and]
  rw [if_pos ⟨h.uPos, h.vPos⟩]

theorem Surface.runs_grid {s : Surface F64} (h : s.Survives) (junk : Vec4 F64) (o : Grid (Vec4 F64)) :
    Runs (Surface.readGridLines junk ((intText s.ControlPoints.UCount ++ ch ' ' :: intText s.ControlPoints.VCount) ::
      s.ControlPoints.Values.map fun v => vec4Text v ++ [])) o () s.ControlPoints := by
  unfold Surface.readGridLines
  refine Runs.bind (Surface.runs_dims h o) ?_
  refine (runs_get _).bind ?_
  refine (runs_lift h.gridCount _).bind ?_
  rw [List.length_map, toInt32_of ⟨by omega, by rw [h.storage]; exact h.count⟩, if_neg (by simp), Int.toNat_natCast]
  refine (runs_modify _ _).bind ?_
  refine Runs.bind (Surface.runs_pointLines _ h.points [] (resize o.Values s.ControlPoints.Values.length junk) _ _
    (resize_length _ _ _)) ?_
  exact runs_pure _ _

/-- The lines of a text surface before the control points. -/
def surfaceHead (s : Surface F64) : List Bytes :=
  (ch '*' :: (lit ['D', 'e', 'g', 'r', 'e', 'e', 'U'] ++ ch ':' :: (ch ' ' :: intText s.DegreeU))) ::
    (ch '*' :: (lit ['D', 'e', 'g', 'r', 'e', 'e', 'V'] ++ ch ':' :: (ch ' ' :: intText s.DegreeV))) ::
    (ch '*' :: (lit ['K', 'n', 'o', 't', 's', 'U'] ++ ch ':' :: [])) :: knotsText s.KnotsU.Values ::
    (ch '*' :: (lit ['K', 'n', 'o', 't', 's', 'V'] ++ ch ':' :: [])) :: knotsText s.KnotsV.Values :: []

/-- The lines before the control points leave the second knot vector to be read. -/
theorem Surface.runs_head {s : Surface F64} (h : s.TextOk) (junk : Vec4 F64) (o : Surface F64) :
    Runs (Load.forEach (textStep (Surface.processKey junk)) (surfaceHead s) {}) o
      ⟨lit ['K', 'n', 'o', 't', 's', 'V'], knotLines s.KnotsV.Values⟩
      ⟨s.DegreeU, s.DegreeV, ⟨o.KnotsU.Values ++ s.KnotsU.Values⟩, o.KnotsV, o.ControlPoints⟩ := by
  unfold surfaceHead
  refine Runs.cons (step_first (trim_intLine _ _) (by decide) rfl (k := lit ['D', 'e', 'g', 'r', 'e', 'e', 'U']) (by decide)
    (trim_intValue _)) ?_
  rw [if_neg (intText_ne _), List.nil_append]
  refine Runs.cons (step_next (trim_intLine _ _) (by decide) (lit_ne _ _) (k := lit ['D', 'e', 'g', 'r', 'e', 'e', 'V'])
    (by decide) (trim_intValue _) (o' := { o with DegreeU := s.DegreeU }) ?_) ?_
  · unfold Surface.processKey; dsimp only
    rw [if_pos rfl]
    exact Runs.zoom _ _ (runs_intLine h.degreeU _)
  rw [if_neg (intText_ne _)]
  refine Runs.cons (step_next (name := lit ['K', 'n', 'o', 't', 's', 'U']) (val := []) (k := lit ['K', 'n', 'o', 't', 's', 'U']) (v := [])
    (by decide) (by decide) (lit_ne _ _) (by decide) rfl (o' := { o with DegreeU := s.DegreeU, DegreeV := s.DegreeV }) ?_) ?_
  · unfold Surface.processKey; dsimp only
    rw [if_neg (by decide), if_pos rfl]
    exact Runs.zoom _ _ (runs_intLine h.degreeV _)
  refine Runs.cons (step_knots (fun y hy => (h.knotsU y hy).1) (by decide)) ?_
  refine Runs.cons (step_next (name := lit ['K', 'n', 'o', 't', 's', 'V']) (val := []) (k := lit ['K', 'n', 'o', 't', 's', 'V']) (v := [])
    (by decide) (by decide) (lit_ne _ _) (by decide) rfl
    (o' := ⟨s.DegreeU, s.DegreeV, ⟨o.KnotsU.Values ++ s.KnotsU.Values⟩, o.KnotsV, o.ControlPoints⟩) ?_) ?_
  · unfold Surface.processKey; dsimp only
    rw [if_neg (by decide), if_neg (by decide), if_pos rfl]
    exact Runs.zoom _ _ (runs_knotLines _ h.knotsU _)
  exact Runs.cons (step_knots (fun y hy => (h.knotsV y hy).1) (by decide)) (runs_nil _ _ _)

/-- The key of the control points makes the second knot vector be read. -/
theorem Surface.runs_key {s : Surface F64} (h : s.TextOk) (junk : Vec4 F64) (o : Surface F64) :
    Runs (textStep (Surface.processKey junk) ⟨lit ['K', 'n', 'o', 't', 's', 'V'], knotLines s.KnotsV.Values⟩
      (ch '*' :: (lit ['C', 'o', 'n', 't', 'r', 'o', 'l', 'P', 'o', 'i', 'n', 't', 's'] ++ ch ':' :: [])))
      ⟨s.DegreeU, s.DegreeV, ⟨o.KnotsU.Values ++ s.KnotsU.Values⟩, o.KnotsV, o.ControlPoints⟩
      ⟨lit ['C', 'o', 'n', 't', 'r', 'o', 'l', 'P', 'o', 'i', 'n', 't', 's'], []⟩
      ⟨s.DegreeU, s.DegreeV, ⟨o.KnotsU.Values ++ s.KnotsU.Values⟩, ⟨o.KnotsV.Values ++ s.KnotsV.Values⟩, o.ControlPoints⟩ := by
  refine step_next (pk := Surface.processKey junk) (st := ⟨lit ['K', 'n', 'o', 't', 's', 'V'], knotLines s.KnotsV.Values⟩)
    (raw := ch '*' :: (lit ['C', 'o', 'n', 't', 'r', 'o', 'l', 'P', 'o', 'i', 'n', 't', 's'] ++ ch ':' :: []))
    (o := ⟨s.DegreeU, s.DegreeV, ⟨o.KnotsU.Values ++ s.KnotsU.Values⟩, o.KnotsV, o.ControlPoints⟩)
    (o' := ⟨s.DegreeU, s.DegreeV, ⟨o.KnotsU.Values ++ s.KnotsU.Values⟩, ⟨o.KnotsV.Values ++ s.KnotsV.Values⟩, o.ControlPoints⟩)
    (name := lit ['C', 'o', 'n', 't', 'r', 'o', 'l', 'P', 'o', 'i', 'n', 't', 's']) (val := [])
    (k := lit ['C', 'o', 'n', 't', 'r', 'o', 'l', 'P', 'o', 'i', 'n', 't', 's']) (v := [])
    (by decide) (by decide) (lit_ne _ _) (by decide) rfl ?_
  unfold Surface.processKey; dsimp only
  rw [if_neg (by decide), if_neg (by decide), if_neg (by decide), if_pos rfl]
  exact Runs.zoom _ _ (runs_knotLines _ h.knotsV _)

/-- All lines of the text of a surface up to the final `process_key`. -/
theorem Surface.runs_steps {s : Surface F64} (h : s.TextOk) (junk : Vec4 F64) (o : Surface F64) :
    Runs (Load.forEach (textStep (Surface.processKey junk)) (surfaceLines s) {}) o
      ⟨lit ['C', 'o', 'n', 't', 'r', 'o', 'l', 'P', 'o', 'i', 'n', 't', 's'],
      (intText s.ControlPoints.UCount ++ ch ' ' :: intText s.ControlPoints.VCount) ::
      s.ControlPoints.Values.map fun v => vec4Text v ++ []⟩
      ⟨s.DegreeU, s.DegreeV, ⟨o.KnotsU.Values ++ s.KnotsU.Values⟩, ⟨o.KnotsV.Values ++ s.KnotsV.Values⟩, o.ControlPoints⟩ := by
  show Runs (Load.forEach _ (surfaceHead s ++ _) _) _ _ _
  refine (Surface.runs_head h junk o).append ?_
  refine Runs.cons (Surface.runs_key h junk o) ?_
  obtain ⟨c, hc, hc'⟩ := intText_head s.ControlPoints.UCount (ch ' ' :: intText s.ControlPoints.VCount)
  refine Runs.cons (step_line (trim_dims _ _) (by decide) ⟨c, hc, hc'.ne.2.2.1⟩) ?_
  have := step_points (pk := Surface.processKey junk) (suf := [])
    (o := (⟨s.DegreeU, s.DegreeV, ⟨o.KnotsU.Values ++ s.KnotsU.Values⟩, ⟨o.KnotsV.Values ++ s.KnotsV.Values⟩,
      o.ControlPoints⟩ : Surface F64)) (fun v hv => by rw [List.append_nil]; exact hv.trim)
    (key := lit ['C', 'o', 'n', 't', 'r', 'o', 'l', 'P', 'o', 'i', 'n', 't', 's']) (by decide) _ h.points
    [intText s.ControlPoints.UCount ++ ch ' ' :: intText s.ControlPoints.VCount]
  exact this

theorem Surface.load_text {s : Surface F64} (h : s.Survives) (junk : Vec4 F64) (o : Surface F64) :
    Surface.LoadFromFile junk o ⟨(LIBNURBS_MAGIC ++ lit [' ', 'T', 'X', 'T', ' ', 'S', 'U', 'R', 'F', 'A', 'C', 'E']) ++
      ch '\n' :: surfaceText s, false⟩ =
      (.ok (), ⟨s.DegreeU, s.DegreeV, ⟨o.KnotsU.Values ++ s.KnotsU.Values⟩, ⟨o.KnotsV.Values ++ s.KnotsV.Values⟩,
        s.ControlPoints⟩, ⟨[], true⟩) := by
  unfold Surface.LoadFromFile
  rw [bind_of_ok (readHeader_ok (b := false) (by decide) (by decide) (by decide) (by decide) o (surfaceText s)),
    if_neg (by decide)]
  refine textLoop_runs (splitBy_surfaceText h.textOk)
    (o' := ⟨s.DegreeU, s.DegreeV, ⟨o.KnotsU.Values ++ s.KnotsU.Values⟩, ⟨o.KnotsV.Values ++ s.KnotsV.Values⟩, o.ControlPoints⟩)
    (st := ⟨lit ['C', 'o', 'n', 't', 'r', 'o', 'l', 'P', 'o', 'i', 'n', 't', 's'],
      (intText s.ControlPoints.UCount ++ ch ' ' :: intText s.ControlPoints.VCount) ::
      s.ControlPoints.Values.map fun v => vec4Text v ++ []⟩) ?_ (lit_ne _ _) ?_
  · exact Surface.runs_steps h.textOk junk o
  · show Runs (Surface.processKey junk (lit ['C', 'o', 'n', 't', 'r', 'o', 'l', 'P', 'o', 'i', 'n', 't', 's']) _) _ _ _
    unfold Surface.processKey; dsimp only
    rw [if_neg (by decide), if_neg (by decide), if_neg (by decide), if_neg (by decide), if_pos rfl]
    exact Runs.zoom _ _ (Surface.runs_grid h junk _)

/-- The text of a surface with points missing. -/
theorem Surface.load_short {s : Surface F64} (h : s.Survives) (junk : Vec4 F64) (o : Surface F64) {k : ℕ}
    (hk : k < s.ControlPoints.Values.length) :
    (Surface.LoadFromFile junk o ⟨(LIBNURBS_MAGIC ++ lit [' ', 'T', 'X', 'T', ' ', 'S', 'U', 'R', 'F', 'A', 'C', 'E']) ++
      ch '\n' :: surfaceText ⟨s.DegreeU, s.DegreeV, s.KnotsU, s.KnotsV,
        ⟨s.ControlPoints.UCount, s.ControlPoints.VCount, s.ControlPoints.Values.take k⟩⟩, false⟩).1 = .error .throws := by
  have h' : Surface.TextOk ⟨s.DegreeU, s.DegreeV, s.KnotsU, s.KnotsV,
        ⟨s.ControlPoints.UCount, s.ControlPoints.VCount, s.ControlPoints.Values.take k⟩⟩ :=
    ⟨h.degreeU, h.degreeV, h.knotsU, h.knotsV, fun v hv => h.points v (List.mem_of_mem_take hv)⟩
  unfold Surface.LoadFromFile
  rw [bind_of_ok (readHeader_ok (b := false) (by decide) (by decide) (by decide) (by decide) o _), if_neg (by decide)]
  unfold textLoop
  simp only [Bool.false_eq_true, if_false, splitBy_surfaceText h']
  rw [bind_of_ok (Surface.runs_steps h' junk o _)]
  dsimp only
  rw [if_pos (lit_ne _ _)]
  unfold Surface.processKey
  rw [if_neg (by decide), if_neg (by decide), if_neg (by decide), if_neg (by decide), if_pos rfl]
  have key : ∀ g st, (Surface.readGridLines junk ((intText s.ControlPoints.UCount ++ ch ' ' :: intText s.ControlPoints.VCount) ::
      (s.ControlPoints.Values.take k).map fun v => vec4Text v ++ []) g st).1 = .error .throws := by
    intro g st
    unfold Surface.readGridLines
    refine (congrArg Prod.fst (bind_of_ok (Surface.runs_dims h g st))).trans ?_
    refine (congrArg Prod.fst (bind_of_ok (runs_get _ st))).trans ?_
    refine (congrArg Prod.fst (bind_of_ok (runs_lift h.gridCount _ st))).trans ?_
    have hl := h.storage
    have hc := h.count
    have hlen : ((s.ControlPoints.Values.take k).map fun v => vec4Text v ++ []).length = k := by
      rw [List.length_map, List.length_take, Nat.min_eq_left hk.le]
    rw [hlen, toInt32_of ⟨by omega, by omega⟩, if_pos (by omega)]
    rfl
  have := key o.ControlPoints ⟨[], true⟩
  unfold Load.zoom
  generalize Surface.readGridLines junk _ o.ControlPoints ⟨[], true⟩ = y at this ⊢
  obtain ⟨r, x, t⟩ := y
  exact this

end Nurbs
