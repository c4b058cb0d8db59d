import Verif.Proof.SerialText
import Verif.Proof.SerialLine
import Verif.Spec.TextLayout

/-! # Reading text files: layout, refusals, and what can go wrong at all -/

set_option linter.unusedSectionVars false

namespace Nurbs

open Spec Serial Utils

variable {σ τ α β : Type}

/-! ## Trimming -/

theorem blank_space {b : Bytes} (h : Blank b) : ∀ c ∈ b, isspace c = true := fun c hc => (isspace_iff c).2 (h c hc)

theorem trim_pad {a x b : Bytes} (ha : Blank a) (hb : Blank b) : TrimString (a ++ x ++ b) = TrimString x := by
  obtain ⟨p, q, hx, hp, hq, h1, h2⟩ := trim_spec x
  refine trim_of (a := a ++ p) (b := q ++ b) ?_ ?_ ?_ (fun c hc => (isspace_false_iff c).2 (h1 c hc)) (fun c hc => (isspace_false_iff c).2 (h2 c hc))
  · conv_lhs => rw [hx]
    simp
  · intro c hc
    rcases List.mem_append.1 hc with hc | hc
    exacts [blank_space ha c hc, (isspace_iff c).2 (hp c hc)]
  · intro c hc
    rcases List.mem_append.1 hc with hc | hc
    exacts [(isspace_iff c).2 (hq c hc), blank_space hb c hc]

theorem trim_blank_iff {b : Bytes} : TrimString b = [] ↔ Blank b := by
  constructor
  · intro h
    obtain ⟨p, q, hx, hp, hq, -, -⟩ := trim_spec b
    rw [h, List.append_nil] at hx
    rw [hx]
    intro c hc
    rcases List.mem_append.1 hc with hc | hc
    exacts [hp c hc, hq c hc]
  · intro h
    exact trim_of (a := b) (t := []) (b := []) (by simp) (blank_space h) (by simp) (by simp) (by simp)

theorem trim_drop {a x : Bytes} (ha : Blank a) : TrimString (a ++ x) = TrimString x := by
  have := trim_pad (x := x) ha (b := []) (fun c hc => by simp at hc)
  rwa [List.append_nil] at this

/-- What trimming leaves of a key line. -/
theorem trim_keyLine {x name value : Bytes} (h : KeyLine x name value) :
    ∃ v, TrimString x = ch '*' :: (name ++ ch ':' :: v) ∧ ch ':' ∉ name ∧ TrimString v = TrimString value := by
  obtain ⟨a, ha, rfl, hn⟩ := h
  -- cut the white space behind the value
  obtain ⟨p, q, hx, hp, hq, h1, h2⟩ := trim_spec value
  by_cases ht : TrimString value = []
  · refine ⟨[], ?_, hn, by rw [ht]; rfl⟩
    have hv : Blank value := trim_blank_iff.1 ht
    refine trim_of (a := a) (b := value) (by simp [ch]) (blank_space ha) (blank_space hv) ?_ ?_
    · intro c hc; simp at hc; subst hc; decide
    · intro c hc
      rw [show ch '*' :: (name ++ [ch ':']) = (ch '*' :: name) ++ [ch ':'] from rfl, List.getLast?_append] at hc
      simp at hc; subst hc; decide
  · refine ⟨p ++ TrimString value, ?_, hn, ?_⟩
    · refine trim_of (a := a) (b := q) ?_ (blank_space ha) (blank_space hq) ?_ ?_
      · conv_lhs => rw [hx]
        simp [ch]
      · intro c hc; simp at hc; subst hc; decide
      · intro c hc
        rw [show ch '*' :: (name ++ ch ':' :: (p ++ TrimString value)) = (ch '*' :: (name ++ ch ':' :: p)) ++ TrimString value by simp,
          List.getLast?_append_of_ne_nil _ ht] at hc
        exact (isspace_false_iff c).2 (h2 c hc)
    · rw [trim_drop hp]
      exact trim_id (fun c hc => (isspace_false_iff c).2 (h1 c hc)) (fun c hc => (isspace_false_iff c).2 (h2 c hc))

/-- A line that is not a key line is not taken for one. -/
theorem noKey_test {x : Bytes} (h : NoKey x) : ¬((TrimString x).head? = some (ch '*') ∧ ch ':' ∈ TrimString x) := by
  rintro ⟨h1, h2⟩
  obtain ⟨p, q, hx, hp, hq, -, -⟩ := trim_spec x
  generalize TrimString x = t at hx h1 h2
  obtain _ | ⟨c, t⟩ := t
  · simp at h1
  simp only [List.head?_cons, Option.some.injEq] at h1
  subst h1
  have h3 : ch ':' ∈ t := by
    rcases List.mem_cons.1 h2 with e | e
    · exact absurd e (by decide)
    · exact e
  obtain ⟨n, v, rfl, hn⟩ := List.eq_append_cons_of_mem h3
  exact h n (v ++ q) ⟨p, hp, by rw [hx]; simp [ch], hn⟩

/-! ## Steps -/

section steps
variable {pk : Bytes → List Bytes → Load σ Unit} {st : TextState}

theorem textStep_congr {x y : Bytes} (h : TrimString x = TrimString y) (st : TextState) : textStep pk st x = textStep pk st y := by
  unfold textStep
  rw [h]

theorem textStep_blank {b : Bytes} (h : Blank b) (st : TextState) : textStep pk st b = pure st := by
  unfold textStep
  simp only [trim_blank_iff.2 h]
  rfl

theorem forEach_pure {f : β → α → Load σ β} {a : α} {b b' : β} (h : f b a = pure b') (l : List α) :
    Load.forEach f (a :: l) b = Load.forEach f l b' := by
  rw [Load.forEach, h]
  rfl

theorem forEach_step {f : β → α → Load σ β} (a : α) (b : β) (l : List α) : Load.forEach f (a :: l) b = f b a >>= fun b' => Load.forEach f l b' := rfl

theorem forEach_same {l l' : List Bytes} (h : SameLines l l') (st : TextState) :
    Load.forEach (textStep pk) l st = Load.forEach (textStep pk) l' st := by
  induction h generalizing st with
  | nil => rfl
  | left hb _ ih => rw [forEach_pure (textStep_blank hb st), ih]
  | right hb _ ih => rw [forEach_pure (textStep_blank hb st), ih]
  | line h1 h2 h3 h4 _ ih =>
    rw [forEach_step, forEach_step, textStep_congr ((trim_pad h1 h2).trans (trim_pad h3 h4).symm)]
    exact congrArg _ (funext ih)

theorem splitBy_lines {ls : List Bytes} (h : ∀ l ∈ ls, (10 : UInt8) ∉ l) (r : Bytes) : splitBy (ch '\n') (linesText ls ++ r) = ls ++ splitBy (ch '\n') r := by
  induction ls with
  | nil => rfl
  | cons l ls ih =>
    have : linesText (l :: ls) ++ r = l ++ ch '\n' :: (linesText ls ++ r) := by simp [linesText, ch]
    rw [this, splitBy_line (d := ch '\n') (h l (by simp)), ih fun m hm => h m (by simp [hm])]
    rfl

theorem splitBy_linesText {ls : List Bytes} (h : ∀ l ∈ ls, (10 : UInt8) ∉ l) : splitBy (ch '\n') (linesText ls) = ls := by
  have := splitBy_lines h []
  simpa [splitBy] using this

/-- What comes after all lines have been read. -/
def finish (pk : Bytes → List Bytes → Load σ Unit) (st : TextState) : Load σ Unit := if st.key ≠ [] then pk st.key st.lines else pure ()

theorem textLoop_eq (o : σ) (b : Bytes) :
    textLoop pk o ⟨b, false⟩ = (Load.forEach (textStep pk) (splitBy (ch '\n') b) {} >>= finish pk) o ⟨[], true⟩ := rfl

/-- A key line. -/
theorem textStep_key {x name value : Bytes} (h : KeyLine x name value) (st : TextState) : textStep pk st x =
    if st.key ≠ [] then pk st.key st.lines >>= fun _ => pure ⟨TrimString name, if TrimString value = [] then [] else [TrimString value]⟩
    else pure ⟨TrimString name, st.lines ++ if TrimString value = [] then [] else [TrimString value]⟩ := by
  obtain ⟨v, hv, hn, hval⟩ := trim_keyLine h
  unfold textStep
  simp only [hv, (scan_key hn).1, (scan_key hn).2, hval]
  rw [if_neg (by simp), if_pos (by simp)]

theorem textStep_noKey {x : Bytes} (h : NoKey x) (hb : ¬ Blank x) (st : TextState) : textStep pk st x =
    if st.key = [] then Load.fail .throws else pure ⟨st.key, st.lines ++ [TrimString x]⟩ := by
  unfold textStep
  rw [if_neg (fun e => hb (trim_blank_iff.1 e)), if_neg (noKey_test h)]

/-- Every line is blank, a key line or neither. -/
theorem line_cases (x : Bytes) : Blank x ∨ (∃ n v, KeyLine x n v) ∨ (NoKey x ∧ ¬ Blank x) := by
  by_cases h : Blank x
  · exact .inl h
  by_cases k : ∃ n v, KeyLine x n v
  · exact .inr (.inl k)
  · exact .inr (.inr ⟨fun n v hk => k ⟨n, v, hk⟩, h⟩)

/-- Inversion of loops. -/
theorem forEach_append_inv {f : β → α → Load σ β} {l₁ l₂ : List α} {b b'' : β} {o o'' : σ} {s s'' : IStream}
    (h : Load.forEach f (l₁ ++ l₂) b o s = (.ok b'', o'', s'')) :
    ∃ b' o' s', Load.forEach f l₁ b o s = (.ok b', o', s') ∧ Load.forEach f l₂ b' o' s' = (.ok b'', o'', s'') := by
  rw [Load.forEach_append] at h
  exact Load.bind_inv h

/-- A section that cannot be processed stays the current one as long as nothing has failed. -/
theorem stuck {k : Bytes} (hk : k ≠ []) (hp : ∀ ls o s o' s', pk k ls o s ≠ (.ok (), o', s')) : ∀ (l : List Bytes) (st st' : TextState) (o o' : σ) (s s' : IStream),
    st.key = k → Load.forEach (textStep pk) l st o s = (.ok st', o', s') → st'.key = k
  | [], st, st', o, o', s, s', e, h => by
    have : st = st' := by
      have := congrArg Prod.fst h
      exact Except.ok.inj this
    rw [← this, e]
  | x :: l, st, st', o, o', s, s', e, h => by
    rw [forEach_step] at h
    rcases line_cases x with c | ⟨n, v, c⟩ | ⟨c, hb⟩
    · rw [textStep_blank c] at h
      exact stuck hk hp l st st' _ _ _ _ e h
    · rw [textStep_key c, if_pos (by rw [e]; exact hk)] at h
      obtain ⟨_, _, _, h1, _⟩ := Load.bind_inv h
      obtain ⟨u, _, _, h2, _⟩ := Load.bind_inv h1
      rw [e] at h2
      exact absurd h2 (hp _ _ _ _ _)
    · rw [textStep_noKey c hb, if_neg (by rw [e]; exact hk)] at h
      exact stuck hk hp l ⟨st.key, st.lines ++ [TrimString x]⟩ st' _ _ _ _ e h

/-- A file with an unknown key is not accepted. -/
theorem unknown_key {l₁ l₂ : List Bytes} {x n v : Bytes} (hx : KeyLine x n v) (hk : TrimString n ≠ [])
    (hp : ∀ ls o s o' s', pk (TrimString n) ls o s ≠ (.ok (), o', s')) (o o' : σ) (s s' : IStream) :
    (Load.forEach (textStep pk) (l₁ ++ x :: l₂) {} >>= finish pk) o s ≠ (.ok (), o', s') := by
  intro h
  obtain ⟨st, o₁, s₁, h1, h2⟩ := Load.bind_inv h
  obtain ⟨st₁, o₂, s₂, -, h3⟩ := forEach_append_inv h1
  rw [forEach_step] at h3
  obtain ⟨st₂, o₃, s₃, h4, h5⟩ := Load.bind_inv h3
  have key : st₂.key = TrimString n := by
    rw [textStep_key hx] at h4
    split at h4
    · obtain ⟨_, _, _, _, h6⟩ := Load.bind_inv h4
      exact congrArg TextState.key (Except.ok.inj (congrArg Prod.fst h6)).symm
    · exact congrArg TextState.key (Except.ok.inj (congrArg Prod.fst h4)).symm
  have e := stuck hk hp l₂ st₂ st _ _ _ _ key h5
  unfold finish at h2
  rw [if_pos (by rw [e]; exact hk), e] at h2
  exact hp _ _ _ _ _ h2

/-- As long as every key has a name, no content is left over. -/
theorem no_leftover : ∀ (l : List Bytes) (st st' : TextState) (o o' : σ) (s s' : IStream), (∀ x ∈ l, ∀ n v, KeyLine x n v → ¬ Blank n) →
    (st.key = [] → st.lines = []) → Load.forEach (textStep pk) l st o s = (.ok st', o', s') → (st'.key = [] → st'.lines = [])
  | [], st, st', o, o', s, s', _, e, h => by
    have : st = st' := Except.ok.inj (congrArg Prod.fst h)
    rw [← this]; exact e
  | x :: l, st, st', o, o', s, s', hn, e, h => by
    have hn' : ∀ x ∈ l, ∀ n v, KeyLine x n v → ¬ Blank n := fun y hy => hn y (by simp [hy])
    rw [forEach_step] at h
    rcases line_cases x with c | ⟨n, v, c⟩ | ⟨c, hb⟩
    · rw [textStep_blank c] at h
      exact no_leftover l st st' _ _ _ _ hn' e h
    · have hk : TrimString n ≠ [] := fun e => hn x (by simp) n v c (trim_blank_iff.1 e)
      obtain ⟨st₁, o₁, s₁, h1, h2⟩ := Load.bind_inv h
      have key : st₁.key = TrimString n := by
        rw [textStep_key c] at h1
        split at h1
        · obtain ⟨_, _, _, _, h6⟩ := Load.bind_inv h1
          exact congrArg TextState.key (Except.ok.inj (congrArg Prod.fst h6)).symm
        · exact congrArg TextState.key (Except.ok.inj (congrArg Prod.fst h1)).symm
      exact no_leftover l st₁ st' _ _ _ _ hn' (fun e => absurd (key ▸ e) hk) h2
    · rw [textStep_noKey c hb] at h
      split at h
      · exact absurd (congrArg Prod.fst h) (by simp [Load.fail, Bind.bind, Load.bind])
      · rename_i hk
        exact no_leftover l ⟨st.key, st.lines ++ [TrimString x]⟩ st' _ _ _ _ hn' (fun e => absurd e hk) h

theorem blank_any (x : Bytes) : Blank x ↔ (x.any fun c => !(c == 9 || c == 10 || c == 11 || c == 12 || c == 13 || c == 32)) = false := by
  unfold Blank Space
  rw [List.any_eq_false]
  refine forall_congr' fun c => forall_congr' fun _ => ?_
  simp
  tauto

theorem content_blank {x : Bytes} (h : Blank x) (l : List Bytes) : contentLines (x :: l) = contentLines l := by
  unfold contentLines
  exact List.countP_cons_of_neg (by rw [(blank_any x).1 h]; simp)

theorem content_line {x : Bytes} (h : ¬ Blank x) (l : List Bytes) : contentLines (x :: l) = contentLines l + 1 := by
  unfold contentLines
  refine List.countP_cons_of_pos ?_
  by_contra hc
  exact h ((blank_any x).2 (by rwa [Bool.not_eq_true] at hc))

/-- Lines without keys are collected. -/
theorem collect : ∀ (l : List Bytes) (st : TextState), (∀ x ∈ l, NoKey x) → st.key ≠ [] → ∃ ls, ls.length = st.lines.length + contentLines l ∧
    Load.forEach (textStep pk) l st = pure ⟨st.key, ls⟩
  | [], st, _, _ => ⟨st.lines, by simp [contentLines], rfl⟩
  | x :: l, st, h, hk => by
    by_cases b : Blank x
    · obtain ⟨ls, h1, h2⟩ := collect l st (fun y hy => h y (by simp [hy])) hk
      refine ⟨ls, ?_, by rw [forEach_pure (textStep_blank b st), h2]⟩
      rw [h1, content_blank b]
    · obtain ⟨ls, h1, h2⟩ := collect l ⟨st.key, st.lines ++ [TrimString x]⟩ (fun y hy => h y (by simp [hy])) hk
      refine ⟨ls, ?_, ?_⟩
      · rw [h1, content_line b]
        simp; omega
      · rw [forEach_pure (b' := ⟨st.key, st.lines ++ [TrimString x]⟩) (by rw [textStep_noKey (h x (by simp)) b, if_neg hk]), h2]

/-- A section that needs exactly one line, with another number of lines. -/
theorem one_line {l₁ mid l₂ : List Bytes} {x n v : Bytes} (h₁ : ∀ x ∈ l₁, ∀ n v, KeyLine x n v → ¬ Blank n) (hx : KeyLine x n v)
    (hk : TrimString n ≠ []) (hm : ∀ x ∈ mid, NoKey x) (h₂ : l₂ = [] ∨ ∃ y n' v' l, l₂ = y :: l ∧ KeyLine y n' v')
    (hc : contentLines (v :: mid) ≠ 1) (hp : ∀ ls o s o' s', pk (TrimString n) ls o s = (.ok (), o', s') → ls.length = 1) (o o' : σ) (s s' : IStream) :
    (Load.forEach (textStep pk) (l₁ ++ x :: (mid ++ l₂)) {} >>= finish pk) o s ≠ (.ok (), o', s') := by
  intro h
  obtain ⟨st, o₁, s₁, h1, h2⟩ := Load.bind_inv h
  obtain ⟨st₁, o₂, s₂, h0, h3⟩ := forEach_append_inv h1
  have left := no_leftover l₁ {} st₁ _ _ _ _ h₁ (fun _ => rfl) h0
  rw [forEach_step] at h3
  obtain ⟨st₂, o₃, s₃, h4, h5⟩ := Load.bind_inv h3
  have key : st₂ = ⟨TrimString n, if TrimString v = [] then [] else [TrimString v]⟩ := by
    rw [textStep_key hx] at h4
    split at h4
    · obtain ⟨_, _, _, _, h6⟩ := Load.bind_inv h4
      exact (Except.ok.inj (congrArg Prod.fst h6)).symm
    · rename_i hz
      have hz' : st₁.key = [] := not_not.1 hz
      have := (Except.ok.inj (congrArg Prod.fst h4)).symm
      rw [left hz', List.nil_append] at this
      exact this
  obtain ⟨st₃, o₄, s₄, h6, h7⟩ := forEach_append_inv h5
  obtain ⟨ls, hl, hf⟩ := collect (pk := pk) mid st₂ hm (by rw [key]; exact hk)
  rw [hf] at h6
  have e3 : st₃ = ⟨TrimString n, ls⟩ := by
    have := (Except.ok.inj (congrArg Prod.fst h6)).symm
    rw [key] at this
    exact this
  have hlen : ls.length = contentLines (v :: mid) := by
    rw [hl, key]
    by_cases b : Blank v
    · rw [content_blank b, if_pos (trim_blank_iff.2 b)]
      simp
    · rw [content_line b, if_neg fun e => b (trim_blank_iff.1 e)]
      simp; omega
  have fin : ∀ o s o' s', pk (TrimString n) ls o s ≠ (.ok (), o', s') := fun o s o' s' e => hc (hlen ▸ hp _ _ _ _ _ e)
  rcases h₂ with rfl | ⟨y, n', v', l, rfl, hy⟩
  · have : st₃ = st := Except.ok.inj (congrArg Prod.fst h7)
    rw [← this, e3] at h2
    unfold finish at h2
    rw [if_pos hk] at h2
    exact fin _ _ _ _ h2
  · rw [forEach_step] at h7
    obtain ⟨_, _, _, h8, _⟩ := Load.bind_inv h7
    rw [textStep_key hy, e3, if_pos hk] at h8
    obtain ⟨_, _, _, h9, _⟩ := Load.bind_inv h8
    exact fin _ _ _ _ h9

/-- Content before the first key. -/
theorem early_content {l₁ l₂ : List Bytes} {x : Bytes} (h₁ : ∀ y ∈ l₁, Blank y) (hx : NoKey x) (hb : ¬ Blank x) (o : σ) (s : IStream) :
    (Load.forEach (textStep pk) (l₁ ++ x :: l₂) {} >>= finish pk) o s = (.error .throws, o, s) := by
  have : Load.forEach (textStep pk) (l₁ ++ x :: l₂) {} = Load.forEach (textStep pk) (x :: l₂) {} := by
    induction l₁ with
    | nil => rfl
    | cons y l ih => rw [List.cons_append, forEach_pure (textStep_blank (h₁ y (by simp)) _), ih fun z hz => h₁ z (by simp [hz])]
  rw [this, forEach_step, textStep_noKey hx hb, if_pos rfl]
  rfl

end steps

/-! ## Failures -/

/-- All failures are exceptions. -/
def Load.OnlyThrows (x : Load σ α) : Prop := ∀ o s e, (x o s).1 = .error e → e = .throws

namespace Load

theorem OnlyThrows.bind {x : Load σ α} {f : α → Load σ β} (h : x.OnlyThrows) (hf : ∀ a, (f a).OnlyThrows) : (x >>= f).OnlyThrows := by
  intro o s e he
  change (Load.bind x f o s).1 = _ at he
  unfold Load.bind at he
  have := h o s
  generalize x o s = y at he this
  obtain ⟨r, o', s'⟩ := y
  cases r with
  | error e' => exact this e (by simpa using he)
  | ok a => exact hf a o' s' e he

theorem onlyThrows_pure (a : α) : (pure a : Load σ α).OnlyThrows := fun _ _ _ h => by cases h
theorem onlyThrows_fail : (fail .throws : Load σ α).OnlyThrows := fun _ _ _ h => (Except.error.inj h).symm
theorem onlyThrows_get : (get : Load σ σ).OnlyThrows := fun _ _ _ h => by cases h
theorem onlyThrows_modify (f : σ → σ) : (modify f).OnlyThrows := fun _ _ _ h => by cases h
theorem onlyThrows_lift {x : M α} (h : ∀ e, x = .error e → e = .throws) : (lift x : Load σ α).OnlyThrows := fun _ _ e he => h e he

theorem OnlyThrows.zoom {x : Load τ α} (h : x.OnlyThrows) (g : σ → τ) (p : τ → σ → σ) : (zoom g p x).OnlyThrows := fun o s e he => h (g o) s e he

theorem onlyThrows_read (n : ℕ) (f : Bytes → σ → σ) : (read n f).OnlyThrows := by
  intro o s e he
  unfold read at he
  simp only at he
  split at he
  · cases he
  · exact (Except.error.inj he).symm

theorem OnlyThrows.forEach {f : β → α → Load σ β} (h : ∀ b a, (f b a).OnlyThrows) : ∀ (l : List α) (b : β), (Load.forEach f l b).OnlyThrows
  | [], b => onlyThrows_pure b
  | a :: l, b => OnlyThrows.bind (h b a) fun b' => OnlyThrows.forEach h l b'

theorem OnlyThrows.ite {p : Prop} [Decidable p] {x y : Load σ α} (hx : x.OnlyThrows) (hy : y.OnlyThrows) : (if p then x else y).OnlyThrows := by
  split
  exacts [hx, hy]

end Load

open Load

theorem onlyThrows_intMember (g : σ → Int) (p : Int → σ → σ) : (readIntMember g p).OnlyThrows := (onlyThrows_read _ _).zoom _ _

theorem onlyThrows_intLocal : (readIntLocal : Load σ Int).OnlyThrows := by
  intro o s e he
  unfold readIntLocal at he
  simp only at he
  split at he
  · cases he
  · exact (Except.error.inj he).symm

theorem onlyThrows_knots : ReadKnotVectorFromStream.OnlyThrows :=
  onlyThrows_intLocal.bind fun _ => onlyThrows_fail.ite ((onlyThrows_modify _).bind fun _ => onlyThrows_read _ _)

theorem readVec4Text_throws (t : Bytes) (e : Err) (h : ReadVec4FromText t = .error e) : e = .throws := by
  unfold ReadVec4FromText at h
  split at h
  · exact (Except.error.inj h).symm
  · split at h
    · exact (Except.error.inj h).symm
    · split at h
      · exact (Except.error.inj h).symm
      · split at h
        · exact (Except.error.inj h).symm
        · cases h

theorem onlyThrows_header (t : Bytes) : (readHeader t : Load σ Bool).OnlyThrows := by
  intro o s e he
  unfold readHeader at he
  split at he
  · exact (Except.error.inj he).symm
  · simp only at he
    split at he
    · exact (Except.error.inj he).symm
    · split at he
      · exact (Except.error.inj he).symm
      · split at he
        · exact (Except.error.inj he).symm
        · cases he

theorem onlyThrows_intLine (ls : List Bytes) : (readIntLine ls).OnlyThrows := by
  intro o s e he
  unfold readIntLine at he
  split at he
  · simp only at he
    split at he
    · cases he
    · exact (Except.error.inj he).symm
  · exact (Except.error.inj he).symm

theorem onlyThrows_knotLines (ls : List Bytes) : (readKnotLines ls).OnlyThrows := by
  unfold readKnotLines
  refine OnlyThrows.forEach (fun _ l => OnlyThrows.forEach (fun _ tok => ?_) _ _) _ _
  simp only
  refine (onlyThrows_pure _).ite ?_
  split
  · exact onlyThrows_fail
  · exact onlyThrows_modify _

theorem onlyThrows_textLoop {pk : Bytes → List Bytes → Load σ Unit} (h : ∀ k ls, (pk k ls).OnlyThrows) : (textLoop pk).OnlyThrows := by
  have step : ∀ st raw, (textStep pk st raw).OnlyThrows := by
    intro st raw
    unfold textStep
    simp only
    refine (onlyThrows_pure _).ite (OnlyThrows.ite (OnlyThrows.ite ?_ (onlyThrows_pure _)) (onlyThrows_fail.ite (onlyThrows_pure _)))
    exact (h _ _).bind fun _ => onlyThrows_pure _
  intro o s e he
  unfold textLoop at he
  exact (OnlyThrows.forEach step _ _).bind (fun st => (h _ _).ite (onlyThrows_pure _)) _ _ _ he

theorem Curve.onlyThrows_key (k : Bytes) (ls : List Bytes) : (Curve.processKey k ls).OnlyThrows := by
  unfold Curve.processKey
  refine ((onlyThrows_intLine ls).zoom _ _).ite (((onlyThrows_knotLines ls).zoom _ _).ite (OnlyThrows.ite ?_ onlyThrows_fail))
  refine OnlyThrows.forEach (fun _ l => OnlyThrows.forEach (fun _ tok => ?_) _ _) _ _
  exact (onlyThrows_pure _).ite ((onlyThrows_lift (readVec4Text_throws _)).bind fun _ => onlyThrows_modify _)

theorem Curve.onlyThrows_load (junk : Vec4 F64) : (Curve.LoadFromFile junk).OnlyThrows := by
  unfold Curve.LoadFromFile
  refine (onlyThrows_header _).bind fun b => OnlyThrows.ite ?_ (onlyThrows_textLoop Curve.onlyThrows_key)
  unfold Curve.loadBinary
  refine (onlyThrows_intMember _ _).bind fun _ => (onlyThrows_knots.zoom _ _).bind fun _ => onlyThrows_intLocal.bind fun n => onlyThrows_fail.ite ?_
  exact (onlyThrows_modify _).bind fun _ => OnlyThrows.forEach (fun _ i => (onlyThrows_read _ _).zoom _ _) _ _

/-! ### Surfaces -/

/-- All failures are exceptions, or undefined behaviour with an object for which `P` holds. -/
def Load.FailsOnly (P : σ → Prop) (x : Load σ α) : Prop := ∀ o s e o' s', x o s = (.error e, o', s') → e = .throws ∨ (e = .ub ∧ P o')

namespace Load

theorem OnlyThrows.failsOnly {P : σ → Prop} {x : Load σ α} (h : x.OnlyThrows) : x.FailsOnly P := fun o s e _ _ he => .inl (h o s e (by rw [he]))

theorem FailsOnly.bind {P : σ → Prop} {x : Load σ α} {f : α → Load σ β} (h : x.FailsOnly P) (hf : ∀ a, (f a).FailsOnly P) : (x >>= f).FailsOnly P := by
  intro o s e o' s' he
  change Load.bind x f o s = _ at he
  unfold Load.bind at he
  have := h o s
  generalize x o s = y at he this
  obtain ⟨r, o₁, s₁⟩ := y
  cases r with
  | error e' => exact this e o' s' (by simpa using he)
  | ok a => exact hf a o₁ s₁ e o' s' he

theorem FailsOnly.zoom {P : σ → Prop} {Q : τ → Prop} {x : Load τ α} (h : x.FailsOnly Q) (g : σ → τ) (p : τ → σ → σ) (hp : ∀ t o, Q t → P (p t o)) :
    (Load.zoom g p x).FailsOnly P := by
  intro o s e o' s' he
  unfold Load.zoom at he
  have := h (g o) s
  generalize x (g o) s = y at he this
  obtain ⟨r, t, s₁⟩ := y
  simp only [Prod.mk.injEq] at he
  obtain ⟨rfl, rfl, rfl⟩ := he
  rcases this e t _ rfl with h | ⟨h, q⟩
  exacts [.inl h, .inr ⟨h, hp t o q⟩]

theorem FailsOnly.ite {P : σ → Prop} {p : Prop} [Decidable p] {x y : Load σ α} (hx : x.FailsOnly P) (hy : y.FailsOnly P) : (if p then x else y).FailsOnly P := by
  split
  exacts [hx, hy]

theorem FailsOnly.forEach {P : σ → Prop} {f : β → α → Load σ β} (h : ∀ b a, (f b a).FailsOnly P) : ∀ (l : List α) (b : β), (Load.forEach f l b).FailsOnly P
  | [], b => (onlyThrows_pure b).failsOnly
  | a :: l, b => FailsOnly.bind (h b a) fun b' => FailsOnly.forEach h l b'

end Load

/-- More control points than an `int` can count. -/
def tooBig (g : Grid (Vec4 F64)) : Prop := 0 < g.UCount ∧ 0 < g.VCount ∧ 2 ^ 31 ≤ g.UCount * g.VCount

/-- `get`, then the product of the dimensions, then something harmless. -/
theorem failsOnly_count {f : Int → Load (Grid (Vec4 F64)) α} {g : Grid (Vec4 F64)} (hg : 0 < g.UCount ∧ 0 < g.VCount) (hf : ∀ n, (f n).OnlyThrows)
    {s s' : IStream} {e : Err} {o' : Grid (Vec4 F64)}
    (h : ((Load.lift (Surface.gridCount g.UCount g.VCount) : Load (Grid (Vec4 F64)) Int) >>= f) g s = (.error e, o', s')) :
    e = .throws ∨ (e = .ub ∧ tooBig o') := by
  by_cases c : -2 ^ 31 ≤ g.UCount * g.VCount ∧ g.UCount * g.VCount < 2 ^ 31
  · have e1 : Surface.gridCount g.UCount g.VCount = .ok (g.UCount * g.VCount) := if_pos c
    rw [e1] at h
    exact .inl (hf _ _ _ _ (congrArg Prod.fst h))
  · have e1 : Surface.gridCount g.UCount g.VCount = .error .ub := if_neg c
    rw [e1] at h
    have h' : ((.error .ub : M α), g, s) = (.error e, o', s') := h
    simp only [Prod.mk.injEq, Except.error.injEq] at h'
    obtain ⟨rfl, rfl, -⟩ := h'
    have := mul_pos hg.1 hg.2
    exact .inr ⟨rfl, hg.1, hg.2, by omega⟩

theorem Surface.failsOnly_gridLines (junk : Vec4 F64) (ls : List Bytes) : (Surface.readGridLines junk ls).FailsOnly tooBig := by
  unfold Surface.readGridLines
  split
  · exact onlyThrows_fail.failsOnly
  rename_i l0 pts
  intro o s e o' s' he
  change Load.bind (Surface.readDims l0) _ o s = _ at he
  unfold Load.bind at he
  have hd : (∃ s₁ e o₁, Surface.readDims l0 o s = (.error e, o₁, s₁) ∧ e = .throws) ∨
      ∃ g, Surface.readDims l0 o s = (.ok (), g, s) ∧ 0 < g.UCount ∧ 0 < g.VCount := by
    unfold Surface.readDims
    split
    rename_i u okU rest _
    cases okU with
    | false => exact .inl ⟨_, _, _, rfl, rfl⟩
    | true =>
      rw [if_pos rfl]
      split
      rename_i v okV _ _
      by_cases c : okV = true ∧ 0 < u ∧ 0 < v
      · exact .inr ⟨_, by rw [if_pos c], c.2⟩
      · exact .inl ⟨s, _, _, by rw [if_neg c], rfl⟩
  rcases hd with ⟨s₁, e₁, o₁, h1, rfl⟩ | ⟨g, h1, hg⟩
  · rw [h1] at he
    simp only [Prod.mk.injEq, Except.error.injEq] at he
    exact .inl he.1.symm
  · rw [h1] at he
    refine failsOnly_count hg (fun n => ?_) he
    refine onlyThrows_fail.ite ((onlyThrows_modify _).bind fun _ => (OnlyThrows.forEach (fun i l => ?_) _ _).bind fun _ => onlyThrows_pure _)
    exact (onlyThrows_pure _).ite ((onlyThrows_lift (readVec4Text_throws _)).bind fun _ => (onlyThrows_modify _).bind fun _ => onlyThrows_pure _)

theorem Surface.failsOnly_grid (junk : Vec4 F64) : (Surface.loadGrid junk).FailsOnly tooBig := by
  unfold Surface.loadGrid
  refine (onlyThrows_intMember _ _).failsOnly.bind fun _ => (onlyThrows_intMember _ _).failsOnly.bind fun _ => ?_
  intro o s e o' s' he
  change (if o.UCount ≤ 0 ∨ o.VCount ≤ 0 then (Load.fail .throws : Load (Grid (Vec4 F64)) Unit) else _) o s = _ at he
  split at he
  · simp only [Load.fail, Prod.mk.injEq, Except.error.injEq] at he
    exact .inl he.1.symm
  · rename_i c
    rw [not_or, not_le, not_le] at c
    exact failsOnly_count c (fun n => (onlyThrows_modify _).bind fun _ => OnlyThrows.forEach (fun _ i => (onlyThrows_read _ _).zoom _ _) _ _) he

theorem failsOnly_textLoop {P : σ → Prop} {pk : Bytes → List Bytes → Load σ Unit} (h : ∀ k ls, (pk k ls).FailsOnly P) : (textLoop pk).FailsOnly P := by
  have step : ∀ st raw, (textStep pk st raw).FailsOnly P := by
    intro st raw
    unfold textStep
    simp only
    refine (onlyThrows_pure _).failsOnly.ite (FailsOnly.ite (FailsOnly.ite ?_ (onlyThrows_pure _).failsOnly) (onlyThrows_fail.ite (onlyThrows_pure _)).failsOnly)
    exact (h _ _).bind fun _ => (onlyThrows_pure _).failsOnly
  intro o s e o' s' he
  unfold textLoop at he
  exact (FailsOnly.forEach step _ _).bind (fun st => (h _ _).ite (onlyThrows_pure _).failsOnly) _ _ _ _ _ he

theorem Surface.failsOnly_load (junk : Vec4 F64) : (Surface.LoadFromFile junk).FailsOnly fun s => tooBig s.ControlPoints := by
  unfold Surface.LoadFromFile
  refine (onlyThrows_header _).failsOnly.bind fun b => FailsOnly.ite ?_ (failsOnly_textLoop fun k ls => ?_)
  · unfold Surface.loadBinary
    refine (onlyThrows_intMember _ _).failsOnly.bind fun _ => (onlyThrows_intMember _ _).failsOnly.bind fun _ => (onlyThrows_knots.zoom _ _).failsOnly.bind fun _ =>
      (onlyThrows_knots.zoom _ _).failsOnly.bind fun _ => (Surface.failsOnly_grid junk).zoom _ _ fun t o q => q
  · unfold Surface.processKey
    refine ((onlyThrows_intLine ls).zoom _ _).failsOnly.ite (((onlyThrows_intLine ls).zoom _ _).failsOnly.ite (((onlyThrows_knotLines ls).zoom _ _).failsOnly.ite
      (((onlyThrows_knotLines ls).zoom _ _).failsOnly.ite (FailsOnly.ite ?_ onlyThrows_fail.failsOnly))))
    exact (Surface.failsOnly_gridLines junk ls).zoom _ _ fun t o q => q

end Nurbs
