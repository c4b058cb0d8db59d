import Verif.Proof.SerialNum

/-! # Text files: trimming, splitting, and the numbers as tokens -/

set_option linter.unusedSectionVars false

namespace Nurbs
open Serial Utils

/-! ## White space -/
namespace Utils

theorem isspace_iff (c : Byte) : isspace c = true ↔ Spec.Space c := by
  unfold isspace Spec.Space
  rw [Bool.or_eq_true, Bool.and_eq_true, decide_eq_true_eq, decide_eq_true_eq, beq_iff_eq]
  simp only [← UInt8.toNat_inj]
  simp only [UInt8.reduceToNat]
  omega

theorem isspace_false_iff (c : Byte) : isspace c = false ↔ ¬ Spec.Space c := by
  rw [← isspace_iff]; simp

theorem trim_of {s t a b : Bytes} (hs : s = a ++ t ++ b) (ha : ∀ c ∈ a, isspace c = true)
    (hb : ∀ c ∈ b, isspace c = true) (h1 : ∀ c ∈ t.head?, isspace c = false)
    (h2 : ∀ c ∈ t.getLast?, isspace c = false) : TrimString s = t := by
  subst hs
  unfold TrimString
  obtain _ | ⟨c, t⟩ := t
  · rw [List.append_nil, (scan_all (a := a ++ b) (p := isspace) ?_).2]
    · rfl
    · intro c hc
      rcases List.mem_append.1 hc with h | h
      · exact ha c h
      · exact hb c h
  · rw [List.append_assoc, (scan_append (p := isspace) _ ha (by simpa using h1)).2, List.reverse_append]
    rw [(scan_append (p := isspace) (c :: t).reverse (a := b.reverse) (fun c hc => hb c (by simpa using hc)) ?_).2]
    · simp
    · intro c' hc
      rw [List.head?_reverse] at hc
      exact h2 c' hc

theorem trim_id {s : Bytes} (h1 : ∀ c ∈ s.head?, isspace c = false) (h2 : ∀ c ∈ s.getLast?, isspace c = false) :
    TrimString s = s :=
  trim_of (a := []) (b := []) (by simp) (by simp) (by simp) h1 h2

theorem trim_id' {s : Bytes} (h : ∀ c ∈ s, isspace c = false) : TrimString s = s :=
  trim_id (fun c hc => h c (List.mem_of_mem_head? hc)) (fun c hc => h c (List.mem_of_getLast? hc))

theorem head_dropWhile {p : Byte → Bool} (l : Bytes) : ∀ c ∈ (l.dropWhile p).head?, p c = false := by
  induction l with
  | nil => simp
  | cons a l ih =>
    intro c hc
    rw [List.dropWhile_cons] at hc
    split_ifs at hc with h
    · exact ih c hc
    · rw [List.head?_cons, Option.mem_some_iff] at hc
      subst hc
      simpa using h

theorem takeWhile_true {p : Byte → Bool} (l : Bytes) : ∀ c ∈ l.takeWhile p, p c = true := by
  induction l with
  | nil => simp
  | cons a l ih =>
    intro c hc
    rw [List.takeWhile_cons] at hc
    split_ifs at hc with h
    · rcases List.mem_cons.1 hc with rfl | hc
      · exact h
      · exact ih c hc
    · simp at hc

theorem trim_spec (s : Bytes) : Spec.IsTrimmed s (TrimString s) := by
  set r := s.dropWhile isspace with hr
  have e1 : s = s.takeWhile isspace ++ r := List.takeWhile_append_dropWhile.symm
  have e2 : r = TrimString s ++ (r.reverse.takeWhile isspace).reverse := by
    have := (List.takeWhile_append_dropWhile (p := isspace) (l := r.reverse)).symm
    have := congrArg List.reverse this
    rw [List.reverse_reverse, List.reverse_append] at this
    exact this
  refine ⟨s.takeWhile isspace, (r.reverse.takeWhile isspace).reverse, ?_, ?_, ?_, ?_, ?_⟩
  · rw [List.append_assoc, ← e2]; exact e1
  · exact fun c hc => (isspace_iff c).1 (takeWhile_true s c hc)
  · exact fun c hc => (isspace_iff c).1 (takeWhile_true _ c (by simpa using hc))
  · intro c hc
    have : c ∈ r.head? := by
      rw [e2, List.head?_append]
      rw [Option.mem_def] at hc
      rw [hc]; rfl
    exact (isspace_false_iff c).1 (head_dropWhile s c this)
  · intro c hc
    have : c ∈ (r.reverse.dropWhile isspace).head? := by
      rw [TrimString, List.getLast?_reverse] at hc
      exact hc
    exact (isspace_false_iff c).1 (head_dropWhile _ c this)

end Utils

namespace Serial

/-! ## Splitting -/

theorem splitBy_line {d : Byte} {line : Bytes} (h : d ∉ line) (r : Bytes) :
    splitBy d (line ++ d :: r) = line :: splitBy d r := by
  induction line with
  | nil => simp [splitBy]
  | cons a l ih =>
    rw [List.mem_cons, not_or] at h
    rw [List.cons_append, splitBy, if_neg (Ne.symm h.1), ih h.2]

theorem splitBy_last {d : Byte} {line : Bytes} (h : d ∉ line) (hne : line ≠ []) : splitBy d line = [line] := by
  induction line with
  | nil => exact (hne rfl).elim
  | cons a l ih =>
    rw [List.mem_cons, not_or] at h
    rw [splitBy, if_neg (Ne.symm h.1)]
    by_cases hl : l = []
    · subst hl; rfl
    · rw [ih h.2 hl]

theorem splitBy_cons {d c : Byte} (hc : c ≠ d) {l t : Bytes} {ts : List Bytes} (h : splitBy d l = t :: ts) :
    splitBy d (c :: l) = (c :: t) :: ts := by
  rw [splitBy, if_neg hc, h]

/-! ## Numbers -/

/-- The characters of printed numbers. -/
def NumChar (c : Byte) : Prop := isDigit c = true ∨ c = ch '-' ∨ c = ch '.'

theorem NumChar.not_space {c : Byte} (h : NumChar c) : isspace c = false := by
  rcases h with h | rfl | rfl
  · exact (digit_cases h).1
  · decide
  · decide

theorem NumChar.ne {c : Byte} (h : NumChar c) : c ≠ ch ',' ∧ c ≠ ch '\n' ∧ c ≠ ch '*' ∧ c ≠ ch ' ' ∧ c ≠ ch ':' := by
  rcases h with h | rfl | rfl
  · have := digit_cases h
    exact ⟨this.2.2.2.2.1, this.2.2.2.2.2.1, this.2.2.2.2.2.2.1, this.2.2.2.2.2.2.2.1, this.2.2.2.2.2.2.2.2⟩
  · decide
  · decide

theorem intText_chars (n : ℤ) : ∀ c ∈ intText n, NumChar c := by
  intro c hc
  unfold intText at hc
  split_ifs at hc
  · rcases List.mem_cons.1 hc with rfl | hc
    · exact .inr (.inl rfl)
    · exact .inl (natText_digits _ c hc)
  · exact .inl (natText_digits _ c hc)

theorem intText_ne (n : ℤ) : intText n ≠ [] := by
  unfold intText
  split_ifs
  · simp
  · exact natText_ne _

/-- The text of a finite double. -/
theorem fixedText_eq {x : F64} (h : Spec.FiniteF64 x) :
    fixedText x = (if x.toNat < 2 ^ 63 then [] else [ch '-']) ++
      (natText (roundHalfEven (magUnits (x.toNat % 2 ^ 63) * 10 ^ 17) (2 ^ 1074) / 10 ^ 17) ++
        (ch '.' :: (fixRev 17 (roundHalfEven (magUnits (x.toNat % 2 ^ 63) * 10 ^ 17) (2 ^ 1074))).reverse)) := by
  unfold fixedText
  simp only
  rw [if_pos ((finite_iff x).1 h)]
  rfl

theorem fixedText_chars {x : F64} (h : Spec.FiniteF64 x) : ∀ c ∈ fixedText x, NumChar c := by
  intro c hc
  rw [fixedText_eq h] at hc
  rcases List.mem_append.1 hc with hc | hc
  · split_ifs at hc
    · simp at hc
    · rw [List.mem_singleton] at hc; exact .inr (.inl hc)
  rcases List.mem_append.1 hc with hc | hc
  · exact .inl (natText_digits _ c hc)
  rcases List.mem_cons.1 hc with rfl | hc
  · exact .inr (.inr rfl)
  · exact .inl (fixRev_digits _ _ c (by simpa using hc))

theorem fixedText_ne {x : F64} (h : Spec.FiniteF64 x) : fixedText x ≠ [] := by
  rw [fixedText_eq h]; simp

theorem takeSign_digit {c : Byte} (h : isDigit c = true) (l : Bytes) : takeSign (c :: l) = (false, c :: l) := by
  have := digit_cases h
  show (if c = ch '-' then _ else _) = _
  rw [if_neg this.2.1, if_neg this.2.2.1]

/-- An optional minus sign before a digit. -/
theorem takeSign_num (neg : Bool) {ds : Bytes} (hd : ∀ c ∈ ds, isDigit c = true) (hne : ds ≠ []) (l : Bytes) :
    takeSign ((if neg then [ch '-'] else []) ++ (ds ++ l)) = (neg, ds ++ l) := by
  obtain _ | ⟨c, ds⟩ := ds
  · exact (hne rfl).elim
  cases neg
  · exact takeSign_digit (hd c (by simp)) _
  · rfl

theorem dropSpace_num (neg : Bool) {ds : Bytes} (hd : ∀ c ∈ ds, isDigit c = true) (hne : ds ≠ []) {pre : Bytes}
    (hpre : ∀ c ∈ pre, isspace c = true) (l : Bytes) :
    (pre ++ ((if neg then [ch '-'] else []) ++ (ds ++ l))).dropWhile isspace =
      (if neg then [ch '-'] else []) ++ (ds ++ l) := by
  refine (scan_append _ hpre ?_).2
  obtain _ | ⟨c, ds⟩ := ds
  · exact (hne rfl).elim
  cases neg
  · intro c' hc
    simp at hc
    subst hc
    exact (digit_cases (hd c (by simp))).1
  · intro c' hc
    simp at hc
    subst hc
    decide

/-- Reading a printed `int`. -/
theorem extractInt_text {n : ℤ} (h : IsInt n) (old : ℤ) {pre rest : Bytes} (hpre : ∀ c ∈ pre, isspace c = true)
    (hrest : ∀ c ∈ rest.head?, isDigit c = false) :
    extractInt old (pre ++ (intText n ++ rest)) = (n, true, rest) := by
  have e : intText n = (if decide (n < 0) then [ch '-'] else []) ++ natText n.natAbs := by
    unfold intText
    by_cases hn : n < 0 <;> simp [hn]
  have hd := natText_digits n.natAbs
  have hne := natText_ne n.natAbs
  rw [e, List.append_assoc]
  unfold extractInt
  simp only
  rw [dropSpace_num _ hd hne hpre, takeSign_num _ hd hne, if_neg (by simp [hne])]
  simp only [(scan_append rest hd hrest).1, (scan_append rest hd hrest).2, decNat_natText]
  rw [if_neg hne]
  have ev : (if decide (n < 0) = true then -(n.natAbs : ℤ) else (n.natAbs : ℤ)) = n := by
    by_cases hn : n < 0
    · rw [if_pos (by simpa using hn)]; omega
    · rw [if_neg (by simpa using hn)]; omega
  rw [ev, if_neg (by have := h.1; omega), if_neg (by have := h.2; omega)]

/-- Reading a printed `double`. -/
theorem extractDouble_text {x : F64} (h : ReadsBack x) {pre rest : Bytes} (hpre : ∀ c ∈ pre, isspace c = true)
    (hrest : ∀ c ∈ rest.head?, isDigit c = false) (he : ∀ c ∈ rest.head?, c ≠ ch 'e' ∧ c ≠ ch 'E') :
    extractDouble (pre ++ (fixedText x ++ rest)) = some (x, rest) := by
  have rb := h.2
  rw [fixedText_eq h.1]
  set d := roundHalfEven (magUnits (x.toNat % 2 ^ 63) * 10 ^ 17) (2 ^ 1074) with hd
  clear_value d
  have hds := natText_digits (d / 10 ^ 17)
  have hne := natText_ne (d / 10 ^ 17)
  have hfr : ∀ c ∈ (fixRev 17 d).reverse, isDigit c = true := fun c hc => fixRev_digits _ _ c (by simpa using hc)
  have es : (if x.toNat < 2 ^ 63 then ([] : Bytes) else [ch '-']) =
      if decide (¬ x.toNat < 2 ^ 63) then [ch '-'] else [] := by
    by_cases hn : x.toNat < 2 ^ 63
    · rw [if_pos hn, if_neg (by rw [decide_eq_true_eq]; exact not_not.2 hn)]
    · rw [if_neg hn, if_pos (by rw [decide_eq_true_eq]; exact hn)]
  rw [es]
  generalize decide (¬ x.toNat < 2 ^ 63) = neg at rb ⊢
  have e0 : pre ++ ((if neg = true then [ch '-'] else []) ++
      (natText (d / 10 ^ 17) ++ ch '.' :: (fixRev 17 d).reverse) ++ rest) =
      pre ++ ((if neg = true then [ch '-'] else []) ++
        (natText (d / 10 ^ 17) ++ (ch '.' :: ((fixRev 17 d).reverse ++ rest)))) := by
    simp [List.append_assoc]
  rw [e0]
  unfold extractDouble
  simp only
  rw [dropSpace_num _ hds hne hpre, takeSign_num _ hds hne]
  have hdot : ∀ c ∈ (ch '.' :: ((fixRev 17 d).reverse ++ rest)).head?, isDigit c = false := by
    intro c hc
    simp at hc
    subst hc
    decide
  simp only [(scan_append _ hds hdot).1, (scan_append _ hds hdot).2, List.head?_cons, if_true, List.tail_cons,
    (scan_append rest hfr hrest).1, (scan_append rest hfr hrest).2]
  have hhead : ¬ (rest.head? = some (ch 'e') ∨ rest.head? = some (ch 'E')) := by
    rintro (h' | h')
    · exact (he _ h').1 rfl
    · exact (he _ h').2 rfl
  rw [if_neg (fun h => hne (List.append_eq_nil_iff.1 h).1), if_neg hhead, decNat_fix, decNat_natText, List.length_reverse, fixRev_length,
    Nat.div_add_mod', rb]
  rfl

/-- Reading a printed point. -/
theorem readVec4_text {v : Vec4 F64} (hx : ReadsBack v.x) (hy : ReadsBack v.y) (hz : ReadsBack v.z)
    (hw : ReadsBack v.w) : ReadVec4FromText (vec4Text v) = .ok v := by
  have hsp : ∀ l : Bytes, (∀ c ∈ (ch ' ' :: l).head?, isDigit c = false) ∧
      (∀ c ∈ (ch ' ' :: l).head?, c ≠ ch 'e' ∧ c ≠ ch 'E') := by
    intro l
    refine ⟨fun c hc => ?_, fun c hc => ?_⟩ <;>
    · simp at hc
      subst hc
      decide
  have hs1 : ∀ c ∈ [ch ' '], isspace c = true := by decide
  have e1 := extractDouble_text hx (pre := []) (by simp) (hsp (fixedText v.y ++ (ch ' ' :: (fixedText v.z ++
    (ch ' ' :: fixedText v.w))))).1 (hsp _).2
  have e2 := extractDouble_text hy hs1 (hsp (fixedText v.z ++ (ch ' ' :: fixedText v.w))).1 (hsp _).2
  have e3 := extractDouble_text hz hs1 (hsp (fixedText v.w)).1 (hsp _).2
  have e4 := extractDouble_text hw hs1 (rest := []) (by simp) (by simp)
  rw [List.append_nil] at e4
  rw [List.nil_append] at e1
  unfold ReadVec4FromText vec4Text
  rw [e1]
  simp only
  rw [List.singleton_append] at e2 e3 e4
  rw [e2]
  simp only
  rw [e3]
  simp only
  rw [e4]

end Serial

/-! ## Running without looking at the stream -/
namespace Load
variable {σ τ α β : Type}

theorem bind_assoc' {γ : Type} (x : Load σ α) (f : α → Load σ β) (g : β → Load σ γ) :
    Load.bind (Load.bind x f) g = Load.bind x fun a => Load.bind (f a) g := by
  funext o s
  unfold Load.bind
  generalize x o s = r
  obtain ⟨_ | _, _, _⟩ := r <;> rfl

theorem forEach_append (f : β → α → Load σ β) (l₁ l₂ : List α) (b : β) :
    forEach f (l₁ ++ l₂) b = Load.bind (forEach f l₁ b) fun b' => forEach f l₂ b' := by
  induction l₁ generalizing b with
  | nil => rfl
  | cons a l ih =>
    rw [List.cons_append, forEach, forEach, bind_assoc']
    congr 1
    funext b'
    exact ih b'

/-- On the object `o`, `x` returns `a` and leaves `o'`, whatever the stream. -/
def Runs (x : Load σ α) (o : σ) (a : α) (o' : σ) : Prop := ∀ s, x o s = (.ok a, o', s)

theorem Runs.bind {x : Load σ α} {f : α → Load σ β} {o o' o'' : σ} {a : α} {c : β}
    (h₁ : Runs x o a o') (h₂ : Runs (f a) o' c o'') : Runs (x >>= f) o c o'' := fun s => by
  rw [bind_of_ok (h₁ s), h₂ s]

theorem runs_pure (a : α) (o : σ) : Runs (pure a : Load σ α) o a o := fun _ => rfl
theorem runs_get (o : σ) : Runs (get : Load σ σ) o o o := fun _ => rfl
theorem runs_modify (f : σ → σ) (o : σ) : Runs (modify f) o () (f o) := fun _ => rfl
theorem runs_lift {x : M α} {a : α} (h : x = .ok a) (o : σ) : Runs (lift x : Load σ α) o a o := fun _ => by
  subst h; rfl

theorem Runs.zoom {x : Load τ α} {t : τ} {a : α} (g : σ → τ) (p : τ → σ → σ) {o : σ}
    (h : Runs x (g o) a t) : Runs (zoom g p x) o a (p t o) := fun s => by
  unfold Load.zoom; rw [h s]

theorem runs_nil (f : β → α → Load σ β) (b : β) (o : σ) : Runs (forEach f [] b) o b o := fun _ => rfl

theorem Runs.cons {f : β → α → Load σ β} {a : α} {l : List α} {b b' b'' : β} {o o' o'' : σ}
    (h₁ : Runs (f b a) o b' o') (h₂ : Runs (forEach f l b') o' b'' o'') : Runs (forEach f (a :: l) b) o b'' o'' :=
  Runs.bind h₁ h₂

theorem Runs.append {f : β → α → Load σ β} {l₁ l₂ : List α} {b b' b'' : β} {o o' o'' : σ}
    (h₁ : Runs (forEach f l₁ b) o b' o') (h₂ : Runs (forEach f l₂ b') o' b'' o'') :
    Runs (forEach f (l₁ ++ l₂) b) o b'' o'' := fun s => by
  rw [forEach_append]
  exact (bind_of_ok (h₁ s)).trans (h₂ s)

end Load

namespace Serial
open Load

/-! ## Knot lists -/

theorem splitBy_knots (x : F64) (l : List F64) (h : ∀ y ∈ x :: l, Spec.FiniteF64 y) :
    splitBy (ch ',') (knotsText (x :: l)) = fixedText x :: l.map fun y => ch ' ' :: fixedText y := by
  induction l generalizing x with
  | nil =>
    exact splitBy_last (fun hc => (fixedText_chars (h x (by simp)) _ hc).ne.1 rfl) (fixedText_ne (h x (by simp)))
  | cons y l ih =>
    rw [knotsText, show lit [',', ' '] ++ knotsText (y :: l) = ch ',' :: (ch ' ' :: knotsText (y :: l)) from rfl,
      splitBy_line (fun hc => (fixedText_chars (h x (by simp)) _ hc).ne.1 rfl),
      splitBy_cons (by decide) (ih y fun z hz => h z (List.mem_cons_of_mem _ hz))]
    rfl

theorem trim_fixed {x : F64} (h : Spec.FiniteF64 x) (pre : Bytes) (hpre : ∀ c ∈ pre, isspace c = true) :
    TrimString (pre ++ fixedText x) = fixedText x :=
  trim_of (a := pre) (b := []) (by simp) hpre (by simp)
    (fun c hc => (fixedText_chars h c (List.mem_of_mem_head? hc)).not_space)
    (fun c hc => (fixedText_chars h c (List.mem_of_getLast? hc)).not_space)

/-- One knot token. -/
theorem runs_knot {x : F64} (h : ReadsBack x) (pre : Bytes) (hpre : ∀ c ∈ pre, isspace c = true)
    (k : KnotVector F64) :
    Runs (σ := KnotVector F64) (if TrimString (pre ++ fixedText x) = [] then pure ()
      else match extractDouble (TrimString (pre ++ fixedText x)) with
        | none => Load.fail .throws
        | some (x, _) => Load.modify fun k => ⟨k.Values ++ [x]⟩) k () ⟨k.Values ++ [x]⟩ := by
  rw [trim_fixed h.1 pre hpre, if_neg (fixedText_ne h.1)]
  have := extractDouble_text h (pre := []) (rest := []) (by simp) (by simp) (by simp)
  rw [List.nil_append, List.append_nil] at this
  rw [this]
  exact runs_modify _ k

theorem runs_knotTokens (l : List F64) (h : ∀ y ∈ l, ReadsBack y) (k : KnotVector F64) :
    Runs (σ := KnotVector F64) (Load.forEach (fun (_ : Unit) tok =>
      let t := TrimString tok
      if t = [] then pure ()
      else match extractDouble t with
        | none => Load.fail .throws
        | some (x, _) => Load.modify fun k => ⟨k.Values ++ [x]⟩) (l.map fun y => ch ' ' :: fixedText y) ()) k ()
      ⟨k.Values ++ l⟩ := by
  induction l generalizing k with
  | nil => rw [List.append_nil]; exact runs_nil _ _ _
  | cons x l ih =>
    rw [List.map_cons]
    refine Runs.cons (runs_knot (h x (by simp)) [ch ' '] (by decide) k) ?_
    have := ih (fun y hy => h y (List.mem_cons_of_mem _ hy)) ⟨k.Values ++ [x]⟩
    rwa [List.append_assoc, List.singleton_append] at this

/-- The lines of a knot section as the text loop collects them. -/
def knotLines (l : List F64) : List Bytes := if l = [] then [] else [knotsText l]

theorem runs_knotLines (l : List F64) (h : ∀ y ∈ l, ReadsBack y) (k : KnotVector F64) :
    Runs (readKnotLines (knotLines l)) k () ⟨k.Values ++ l⟩ := by
  unfold readKnotLines knotLines
  obtain _ | ⟨x, l⟩ := l
  · rw [if_pos rfl, List.append_nil]; exact runs_nil _ _ _
  · rw [if_neg (by simp)]
    refine Runs.cons ?_ (runs_nil _ _ _)
    rw [splitBy_knots x l fun y hy => (h y hy).1]
    have h1 := runs_knot (h x (by simp)) [] (by simp) k
    rw [List.nil_append] at h1
    refine Runs.cons h1 ?_
    have := runs_knotTokens l (fun y hy => h y (List.mem_cons_of_mem _ hy)) ⟨k.Values ++ [x]⟩
    rwa [List.append_assoc, List.singleton_append] at this

theorem knotsText_chars {l : List F64} (h : ∀ y ∈ l, Spec.FiniteF64 y) :
    ∀ c ∈ knotsText l, NumChar c ∨ c = ch ',' ∨ c = ch ' ' := by
  match l with
  | [] => simp [knotsText]
  | [x] => exact fun c hc => .inl (fixedText_chars (h x (by simp)) c hc)
  | x :: y :: l =>
    intro c hc
    rw [knotsText] at hc
    rcases List.mem_append.1 hc with hc | hc
    · exact .inl (fixedText_chars (h x (by simp)) c hc)
    rcases List.mem_append.1 hc with hc | hc
    · right; simpa [lit] using hc
    · exact knotsText_chars (l := y :: l) (fun z hz => h z (List.mem_cons_of_mem _ hz)) c hc

theorem knotsText_ends {l : List F64} (h : ∀ y ∈ l, Spec.FiniteF64 y) (hne : l ≠ []) :
    (∃ c, (knotsText l).head? = some c ∧ NumChar c) ∧ (∃ c, (knotsText l).getLast? = some c ∧ NumChar c) := by
  have hf : ∀ x : F64, Spec.FiniteF64 x → (∃ c, (fixedText x).head? = some c ∧ NumChar c) ∧
      (∃ c, (fixedText x).getLast? = some c ∧ NumChar c) := by
    intro x hx
    constructor
    · cases hh : (fixedText x).head? with
      | none => exact (fixedText_ne hx (List.head?_eq_none_iff.1 hh)).elim
      | some c => exact ⟨c, rfl, fixedText_chars hx c (List.mem_of_mem_head? hh)⟩
    · cases hh : (fixedText x).getLast? with
      | none => exact (fixedText_ne hx (List.getLast?_eq_none_iff.1 hh)).elim
      | some c => exact ⟨c, rfl, fixedText_chars hx c (List.mem_of_getLast? hh)⟩
  match l with
  | [] => exact (hne rfl).elim
  | [x] => exact hf x (h x (by simp))
  | x :: y :: l =>
    obtain ⟨⟨c, hc, hc'⟩, -⟩ := hf x (h x (by simp))
    obtain ⟨-, ⟨d, hd, hd'⟩⟩ := knotsText_ends (l := y :: l) (fun z hz => h z (List.mem_cons_of_mem _ hz)) (by simp)
    rw [knotsText]
    refine ⟨⟨c, by rw [List.head?_append, hc]; rfl, hc'⟩, ⟨d, ?_, hd'⟩⟩
    rw [List.getLast?_append, List.getLast?_append, hd]; rfl

theorem trim_knots {l : List F64} (h : ∀ y ∈ l, Spec.FiniteF64 y) : TrimString (knotsText l) = knotsText l := by
  by_cases hne : l = []
  · subst hne; rfl
  · obtain ⟨⟨c, hc, hc'⟩, ⟨d, hd, hd'⟩⟩ := knotsText_ends h hne
    refine trim_id ?_ ?_
    · intro b hb
      rw [hc, Option.mem_some_iff] at hb
      exact hb ▸ hc'.not_space
    · intro b hb
      rw [hd, Option.mem_some_iff] at hb
      exact hb ▸ hd'.not_space

end Serial
/-- The colon after a key. -/
theorem scan_key {name val : Bytes} (hn : ch ':' ∉ name) :
    ((ch '*' :: (name ++ ch ':' :: val)).takeWhile (· != ch ':')).drop 1 = name ∧
      ((ch '*' :: (name ++ ch ':' :: val)).dropWhile (· != ch ':')).drop 1 = val := by
  have := scan_append (p := (· != ch ':')) (a := ch '*' :: name) (ch ':' :: val) (by
    intro c hc
    rcases List.mem_cons.1 hc with rfl | hc
    · decide
    · simpa using fun e : c = ch ':' => hn (e ▸ hc)) (by simp)
  rw [List.cons_append] at this
  rw [this.1, this.2]
  exact ⟨rfl, rfl⟩

end Nurbs
