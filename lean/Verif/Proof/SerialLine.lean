import Verif.Proof.SerialText
import Verif.Proof.SerialHeader

/-! # Which first lines are headers -/

set_option linter.unusedSectionVars false

namespace Nurbs
open Serial Utils

namespace Serial

theorem nextWord_split (l : Bytes) : ∃ sp, l = sp ++ ((nextWord l).1 ++ (nextWord l).2) ∧ (∀ c ∈ sp, isspace c = true) ∧
    (∀ c ∈ (nextWord l).1, isspace c = false) ∧ (∀ c ∈ (nextWord l).2.head?, isspace c = true) ∧
    (∀ c ∈ ((nextWord l).1 ++ (nextWord l).2).head?, isspace c = false) := by
  refine ⟨l.takeWhile isspace, ?_, takeWhile_true l, ?_, ?_, ?_⟩
  · unfold nextWord
    simp only
    rw [List.takeWhile_append_dropWhile, List.takeWhile_append_dropWhile]
  · intro c hc
    have := takeWhile_true _ c hc
    simpa using this
  · intro c hc
    have := head_dropWhile _ c hc
    simpa using this
  · unfold nextWord
    simp only
    rw [List.takeWhile_append_dropWhile]
    exact head_dropWhile l

theorem nextWord_of {sp w r : Bytes} (hs : ∀ c ∈ sp, isspace c = true) (hw : ∀ c ∈ w, isspace c = false) (hne : w ≠ [])
    (hr : ∀ c ∈ r.head?, isspace c = true) : nextWord (sp ++ (w ++ r)) = (w, r) := by
  have h1 : (sp ++ (w ++ r)).dropWhile isspace = w ++ r := by
    refine (scan_append _ hs ?_).2
    obtain _ | ⟨c, w⟩ := w
    · exact (hne rfl).elim
    · intro c' hc
      simp at hc
      subst hc
      exact hw c (by simp)
  have h2 := scan_append (p := fun c => !isspace c) (a := w) r (fun c hc => by simp [hw c hc]) (fun c hc => by simp [hr c hc])
  unfold nextWord
  simp only
  rw [h1, h2.1, h2.2]

/-- The first three words as the specification has them. -/
theorem words_spec {line : Bytes} (h1 : (nextWord line).1 ≠ []) (h2 : (nextWord (nextWord line).2).1 ≠ [])
    (h3 : (nextWord (nextWord (nextWord line).2).2).1 ≠ []) :
    Spec.FirstWords line (nextWord line).1 (nextWord (nextWord line).2).1 (nextWord (nextWord (nextWord line).2).2).1 := by
  obtain ⟨s₀, e0, a0, b0, c0, -⟩ := nextWord_split line
  obtain ⟨s₁, e1, a1, b1, c1, d1⟩ := nextWord_split (nextWord line).2
  obtain ⟨s₂, e2, a2, b2, c2, d2⟩ := nextWord_split (nextWord (nextWord line).2).2
  have sp : ∀ {l : Bytes}, (∀ c ∈ l, isspace c = true) → ∀ c ∈ l, Spec.Space c := fun h c hc => (isspace_iff c).1 (h c hc)
  have ns : ∀ {l : Bytes}, (∀ c ∈ l, isspace c = false) → ∀ c ∈ l, ¬ Spec.Space c :=
    fun h c hc => (isspace_false_iff c).1 (h c hc)
  refine ⟨s₀, s₁, s₂, (nextWord (nextWord (nextWord line).2).2).2, ?_, sp a0, sp a1, sp a2, ?_, ?_, ns b0, ns b1, ns b2,
    fun c hc => (isspace_iff c).1 (c2 c hc)⟩
  · conv_lhs => rw [e0, e1, e2]
  · rintro rfl
    rw [List.nil_append] at e1
    obtain ⟨c, hc⟩ : ∃ c, (nextWord line).2.head? = some c := by
      cases hh : (nextWord line).2.head? with
      | some c => exact ⟨c, rfl⟩
      | none =>
        rw [List.head?_eq_none_iff] at hh
        rw [hh] at h2
        exact (h2 rfl).elim
    have t := c0 c hc
    have f := d1 c (by rw [← e1]; exact hc)
    rw [t] at f
    exact absurd f (by decide)
  · rintro rfl
    rw [List.nil_append] at e2
    obtain ⟨c, hc⟩ : ∃ c, (nextWord (nextWord line).2).2.head? = some c := by
      cases hh : (nextWord (nextWord line).2).2.head? with
      | some c => exact ⟨c, rfl⟩
      | none =>
        rw [List.head?_eq_none_iff] at hh
        rw [hh] at h3
        exact (h3 rfl).elim
    have t := c1 c hc
    have f := d2 c (by rw [← e2]; exact hc)
    rw [t] at f
    exact absurd f (by decide)

theorem words_of_spec {line w₁ w₂ w₃ : Bytes} (h : Spec.FirstWords line w₁ w₂ w₃) (h1 : w₁ ≠ []) (h2 : w₂ ≠ []) (h3 : w₃ ≠ []) :
    (nextWord line).1 = w₁ ∧ (nextWord (nextWord line).2).1 = w₂ ∧ (nextWord (nextWord (nextWord line).2).2).1 = w₃ := by
  obtain ⟨s₀, s₁, s₂, rest, e, a0, a1, a2, n1, n2, b0, b1, b2, hr⟩ := h
  have sp : ∀ {l : Bytes}, (∀ c ∈ l, Spec.Space c) → ∀ c ∈ l, isspace c = true := fun h c hc => (isspace_iff c).2 (h c hc)
  have ns : ∀ {l : Bytes}, (∀ c ∈ l, ¬ Spec.Space c) → ∀ c ∈ l, isspace c = false :=
    fun h c hc => (isspace_false_iff c).2 (h c hc)
  have hd : ∀ {s r : Bytes}, s ≠ [] → (∀ c ∈ s, isspace c = true) → ∀ c ∈ (s ++ r).head?, isspace c = true := by
    intro s r hne hs c hc
    obtain _ | ⟨d, s⟩ := s
    · exact (hne rfl).elim
    · simp at hc
      subst hc
      exact hs d (by simp)
  have w1 := nextWord_of (sp a0) (ns b0) h1 (hd (r := w₂ ++ (s₂ ++ (w₃ ++ rest))) n1 (sp a1))
  have w2 := nextWord_of (sp a1) (ns b1) h2 (hd (r := w₃ ++ rest) n2 (sp a2))
  have w3 := nextWord_of (sp a2) (ns b2) h3 (fun c hc => (isspace_iff c).2 (hr c hc))
  rw [← e] at w1
  have x1 : (nextWord line).2 = s₁ ++ (w₂ ++ (s₂ ++ (w₃ ++ rest))) := by rw [w1]
  have x2 : (nextWord (nextWord line).2).2 = s₂ ++ (w₃ ++ rest) := by rw [x1, w2]
  exact ⟨by rw [w1], by rw [x1, w2], by rw [x2, w3]⟩

theorem getline_spec {b line : Bytes} {s : IStream} (h : getline ⟨b, false⟩ = some (line, s)) :
    Spec.IsFirstLine b line := by
  have h0 : b ≠ [] := by
    rintro rfl
    rw [getline_nil] at h
    simp at h
  unfold getline at h
  rw [if_neg (by simpa using h0)] at h
  dsimp only at h
  have e := (List.takeWhile_append_dropWhile (p := (· != ch '\n')) (l := b)).symm
  have hn : ch '\n' ∉ b.takeWhile (· != ch '\n') := fun hc => by
    have := takeWhile_true b _ hc
    simp at this
  cases hd : b.dropWhile (· != ch '\n') with
  | nil =>
    rw [hd] at h e
    simp only [Option.some.injEq, Prod.mk.injEq] at h
    rw [← h.1]
    exact ⟨hn, .inl (by rw [List.append_nil] at e; exact e)⟩
  | cons c r =>
    rw [hd] at h e
    simp only [Option.some.injEq, Prod.mk.injEq] at h
    rw [← h.1]
    have hc := head_dropWhile (p := (· != ch '\n')) b c (by rw [hd]; rfl)
    have hc' : c = ch '\n' := by simpa using hc
    subst hc'
    exact ⟨hn, .inr ⟨r, e⟩⟩

/-- A header that must be accepted. -/
theorem readHeader_of {σ : Type} {type b line w : Bytes} (htype : type ≠ []) (hl : Spec.IsFirstLine b line)
    (hw : Spec.FirstWords line LIBNURBS_MAGIC w type) (hm : w = lit ['T', 'X', 'T'] ∨ w = lit ['B', 'I', 'N']) :
    ∃ s : IStream, (b = line → s = ⟨[], true⟩) ∧ (∀ rest, b = line ++ 10 :: rest → s = ⟨rest, false⟩) ∧
      ∀ o : σ, readHeader type o ⟨b, false⟩ = (.ok (decide (w = lit ['B', 'I', 'N'])), o, s) := by
  obtain ⟨h1, h2, h3⟩ := words_of_spec hw (by decide) (by rcases hm with h | h <;> rw [h] <;> decide) htype
  obtain ⟨hn, hb⟩ := hl
  have hne : line ≠ [] := by
    rintro rfl
    exact absurd h1 (by decide)
  have key : ∀ s, getline ⟨b, false⟩ = some (line, s) → ∀ o : σ, readHeader type o ⟨b, false⟩ =
      (.ok (decide (w = lit ['B', 'I', 'N'])), o, s) := by
    intro s hs o
    unfold readHeader
    rw [hs]
    simp only [h1, h2, h3, ne_eq, not_true_eq_false, if_false]
    rw [if_neg (by tauto)]
  rcases hb with rfl | ⟨rest, rfl⟩
  · refine ⟨⟨[], true⟩, fun _ => rfl, fun rest e => ?_, key _ (getline_last hn hne)⟩
    have := congrArg List.length e
    simp at this
  · refine ⟨⟨rest, false⟩, fun e => ?_, fun rest' e => ?_, key _ (getline_line hn rest)⟩
    · have := congrArg List.length e
      simp at this
    · have := List.append_cancel_left e
      simp only [List.cons.injEq, true_and] at this
      rw [this]

/-- A header that is accepted. -/
theorem readHeader_inv {σ : Type} {type b : Bytes} (htype : type ≠ []) {o : σ} :
    (∃ line w s, readHeader type o ⟨b, false⟩ = (.ok (decide (w = lit ['B', 'I', 'N'])), o, s) ∧ Spec.IsFirstLine b line ∧
      Spec.FirstWords line LIBNURBS_MAGIC w type ∧ (w = lit ['T', 'X', 'T'] ∨ w = lit ['B', 'I', 'N'])) ∨
    ∃ s, readHeader type o ⟨b, false⟩ = (.error .throws, o, s) := by
  unfold readHeader
  cases hg : getline ⟨b, false⟩ with
  | none => exact .inr ⟨_, rfl⟩
  | some p =>
    obtain ⟨line, s⟩ := p
    simp only
    split_ifs with h1 h2 h3
    · exact .inr ⟨_, rfl⟩
    · exact .inr ⟨_, rfl⟩
    · exact .inr ⟨_, rfl⟩
    · rw [not_not] at h1 h3
      have hmode : (nextWord (nextWord line).2).1 = lit ['T', 'X', 'T'] ∨ (nextWord (nextWord line).2).1 = lit ['B', 'I', 'N'] := by
        by_contra hc
        rw [not_or] at hc
        exact h2 hc
      refine .inl ⟨line, (nextWord (nextWord line).2).1, s, rfl, getline_spec hg, ?_, hmode⟩
      have := words_spec (line := line) (by rw [h1]; decide) (by rcases hmode with h | h <;> rw [h] <;> decide)
        (by rw [h3]; exact htype)
      rwa [h1, h3] at this

end Serial

end Nurbs
