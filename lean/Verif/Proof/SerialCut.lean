import Verif.Proof.SerialFile

/-! # Text files that have been cut -/

set_option linter.unusedSectionVars false

namespace Nurbs
open Serial Utils Load

namespace Load
variable {σ τ α β : Type}

/-- On the object `o`, `x` throws, whatever the stream. -/
def Fails (x : Load σ α) (o : σ) : Prop := ∀ s, (x o s).1 = .error .throws

theorem Runs.fails {x : Load σ α} {f : α → Load σ β} {o o' : σ} {a : α} (h₁ : Runs x o a o') (h₂ : Fails (f a) o') :
    Fails (x >>= f) o := fun s => (congrArg Prod.fst (bind_of_ok (h₁ s))).trans (h₂ s)

theorem Fails.bind {x : Load σ α} {f : α → Load σ β} {o : σ} (h : Fails x o) : Fails (x >>= f) o := fun s => by
  have := h s
  show (Load.bind x f o s).1 = _
  unfold Load.bind
  generalize x o s = r at this
  obtain ⟨_ | _, _, _⟩ := r
  · exact congrArg Except.error (Except.error.inj this)
  · cases this

theorem Fails.zoom {x : Load τ α} (g : σ → τ) (p : τ → σ → σ) {o : σ} (h : Fails x (g o)) : Fails (zoom g p x) o := fun s => by
  have := h s
  unfold Load.zoom
  generalize x (g o) s = r at this
  exact this

theorem fails_fail (o : σ) : Fails (Load.fail .throws : Load σ α) o := fun _ => rfl

theorem fails_lift {x : M α} (h : x = .error .throws) (o : σ) : Fails (Load.lift x : Load σ α) o := fun _ => h

theorem Runs.append_fails {f : β → α → Load σ β} {l₁ l₂ : List α} {b b' : β} {o o' : σ}
    (h₁ : Runs (forEach f l₁ b) o b' o') (h₂ : Fails (forEach f l₂ b') o') : Fails (forEach f (l₁ ++ l₂) b) o := by
  rw [forEach_append]
  exact Runs.fails h₁ h₂

theorem Fails.cons {f : β → α → Load σ β} {a : α} {l : List α} {b : β} {o : σ} (h : Fails (f b a) o) :
    Fails (forEach f (a :: l) b) o := Fails.bind h

end Load

namespace Serial

/-! ## Beginnings of texts -/

theorem split_prefix {p q a b : Bytes} (h : p ++ q = a ++ b) :
    (∃ c, a = p ++ c ∧ q = c ++ b) ∨ ∃ c, p = a ++ c ∧ b = c ++ q :=
  List.append_eq_append_iff.1 h

/-- Lines, each with its end. -/
def unlines (L : List Bytes) : Bytes := L.flatMap (· ++ [ch '\n'])

theorem unlines_cons (a : Bytes) (L : List Bytes) : unlines (a :: L) = a ++ ch '\n' :: unlines L := by
  simp [unlines]

theorem cut_lines (L : List Bytes) {p q : Bytes} (h : p ++ q = unlines L) : ∃ k part, k ≤ L.length ∧
    p = unlines (L.take k) ++ part ∧ ((part = [] ∧ k = L.length ∧ q = []) ∨
      ∃ r, L[k]? = some (part ++ r) ∧ q = r ++ ch '\n' :: unlines (L.drop (k + 1))) := by
  induction L generalizing p with
  | nil =>
    obtain ⟨rfl, rfl⟩ := List.append_eq_nil_iff.1 (show p ++ q = [] from h)
    exact ⟨0, [], le_rfl, rfl, .inl ⟨rfl, rfl, rfl⟩⟩
  | cons a L ih =>
    rw [unlines_cons] at h
    rcases split_prefix h with ⟨c, h1, h2⟩ | ⟨c, h1, h2⟩
    · exact ⟨0, p, by simp, rfl, .inr ⟨c, by simp [h1], h2⟩⟩
    · obtain _ | ⟨x, c⟩ := c
      · rw [List.append_nil] at h1
        refine ⟨0, p, by simp, rfl, .inr ⟨[], by simp [h1], ?_⟩⟩
        simpa using h2.symm
      · rw [List.cons_append] at h2
        obtain ⟨e1, e2⟩ := List.cons_eq_cons.1 h2
        subst e1
        obtain ⟨k, part, hk, hp, hr⟩ := ih e2.symm
        refine ⟨k + 1, part, by simpa using hk, ?_, ?_⟩
        · rw [h1, hp, List.take_succ_cons, unlines_cons]; simp
        · rcases hr with ⟨e1, e2, e3⟩ | ⟨r, e1, e2⟩
          · exact .inl ⟨e1, by simp [e2], e3⟩
          · exact .inr ⟨r, by simpa using e1, by simpa using e2⟩

theorem splitBy_unlines (L : List Bytes) (h : ∀ l ∈ L, ch '\n' ∉ l) {part : Bytes} (hp : ch '\n' ∉ part) :
    splitBy (ch '\n') (unlines L ++ part) = L ++ if part = [] then [] else [part] := by
  induction L with
  | nil =>
    show splitBy _ part = _
    split_ifs with h
    · subst h; rfl
    · exact splitBy_last hp h
  | cons a L ih =>
    rw [unlines_cons, List.append_assoc, List.cons_append, splitBy_line (h a (by simp)),
      ih fun l hl => h l (List.mem_cons_of_mem _ hl)]
    rfl

/-- The last line of a text is determined by it. -/
theorem last_line {a b l m : Bytes} (hl : ch '\n' ∉ l) (hm : ch '\n' ∉ m) (h : a ++ ch '\n' :: l = b ++ ch '\n' :: m) : l = m := by
  rcases split_prefix h with ⟨c, -, h2⟩ | ⟨c, -, h2⟩
  · obtain _ | ⟨x, c⟩ := c
    · simpa using h2
    · obtain ⟨-, e⟩ := List.cons_eq_cons.1 h2
      exact (hl (e ▸ by simp)).elim
  · obtain _ | ⟨x, c⟩ := c
    · simpa using h2.symm
    · obtain ⟨-, e⟩ := List.cons_eq_cons.1 h2
      exact (hm (e ▸ by simp)).elim

theorem trim_prefix {p : Bytes} (h : ∀ c ∈ p.head?, isspace c = false) (hne : p ≠ []) :
    (∃ r, p = TrimString p ++ r) ∧ TrimString p ≠ [] ∧ (TrimString p).head? = p.head? := by
  obtain ⟨a, b, e, ha, hb, -, -⟩ := trim_spec p
  have ea : a = [] := by
    obtain _ | ⟨c, a⟩ := a
    · rfl
    · have h1 := h c (by rw [e]; rfl)
      exact absurd (ha c (by simp)) ((isspace_false_iff c).1 h1)
  subst ea
  rw [List.nil_append] at e
  have et : TrimString p ≠ [] := by
    intro et
    rw [et, List.nil_append] at e
    obtain _ | ⟨c, b⟩ := b
    · exact hne e
    · have h1 := h c (by rw [e]; rfl)
      exact absurd (hb c (by simp)) ((isspace_false_iff c).1 h1)
  refine ⟨⟨b, e⟩, et, ?_⟩
  conv_rhs => rw [e]
  rw [List.head?_append]
  cases hh : (TrimString p).head? with
  | none => exact (et (List.head?_eq_none_iff.1 hh)).elim
  | some c => rfl

/-! ## Numbers cut short -/

/-- After the number nothing is left. -/
def Ends (l : Bytes) : Prop := ∀ y, extractDouble l = some y → y.2 = []

theorem ends_core (neg : Bool) {ds fs pre : Bytes} (hpre : ∀ c ∈ pre, isspace c = true) (hds : ∀ c ∈ ds, isDigit c = true)
    (hfs : ∀ c ∈ fs, isDigit c = true) (dot : Bool) :
    Ends (pre ++ ((if neg then [ch '-'] else []) ++ (ds ++ if dot then ch '.' :: fs else []))) := by
  intro y hy
  unfold extractDouble at hy
  simp only at hy
  have h1 : (pre ++ ((if neg = true then [ch '-'] else []) ++ (ds ++ if dot = true then ch '.' :: fs else []))).dropWhile isspace =
      ((if neg then [ch '-'] else []) ++ (ds ++ if dot then ch '.' :: fs else [])) := by
    refine (scan_append _ hpre ?_).2
    intro c hc
    have hm := List.mem_of_mem_head? hc
    have : NumChar c := by
      rcases List.mem_append.1 hm with hm | hm
      · split_ifs at hm
        · exact .inr (.inl (by simpa using hm))
        · simp at hm
      · rcases List.mem_append.1 hm with hm | hm
        · exact .inl (hds c hm)
        · split_ifs at hm
          · rcases List.mem_cons.1 hm with hm | hm
            · exact .inr (.inr hm)
            · exact .inl (hfs c hm)
          · simp at hm
    exact this.not_space
  have h2 : takeSign ((if neg then [ch '-'] else []) ++ (ds ++ if dot then ch '.' :: fs else [])) =
      (neg, ds ++ if dot then ch '.' :: fs else []) := by
    cases neg
    · obtain _ | ⟨c, ds⟩ := ds
      · cases dot <;> rfl
      · exact takeSign_digit (hds c (by simp)) _
    · rfl
  rw [h1, h2] at hy
  have hd : ∀ c ∈ (if dot then ch '.' :: fs else []).head?, isDigit c = false := by
    cases dot
    · simp
    · intro c hc
      simp at hc
      subst hc
      decide
  simp only [(scan_append _ hds hd).1, (scan_append _ hds hd).2] at hy
  cases dot
  · simp only [Bool.false_eq_true, if_false] at hy
    rw [if_neg (show ¬ (([] : Bytes).head? = some (ch '.')) by simp), if_neg (show ¬ (([] : Bytes).head? = some (ch '.')) by simp)] at hy
    rw [List.head?_nil, if_neg (show ¬ ((none : Option Byte) = some (ch 'e') ∨ (none : Option Byte) = some (ch 'E')) by simp)] at hy
    split_ifs at hy with g1
    obtain ⟨x, -, rfl⟩ := Option.map_eq_some_iff.1 hy
    rfl
  · simp only [if_true, List.head?_cons, List.tail_cons, (scan_all hfs).1, (scan_all hfs).2] at hy
    rw [List.head?_nil, if_neg (show ¬ ((none : Option Byte) = some (ch 'e') ∨ (none : Option Byte) = some (ch 'E')) by simp)] at hy
    split_ifs at hy with g1
    obtain ⟨x, -, rfl⟩ := Option.map_eq_some_iff.1 hy
    rfl

theorem ends_fixed {x : F64} (hx : Spec.FiniteF64 x) {p r pre : Bytes} (h : fixedText x = p ++ r)
    (hpre : ∀ c ∈ pre, isspace c = true) : Ends (pre ++ p) := by
  rw [fixedText_eq hx] at h
  set d := roundHalfEven (magUnits (x.toNat % 2 ^ 63) * 10 ^ 17) (2 ^ 1074) with hd
  clear_value d
  have hds := natText_digits (d / 10 ^ 17)
  have hfr : ∀ c ∈ (fixRev 17 d).reverse, isDigit c = true := fun c hc => fixRev_digits _ _ c (by simpa using hc)
  generalize natText (d / 10 ^ 17) = ds at h hds
  generalize (fixRev 17 d).reverse = fs at h hfr
  have es : (if x.toNat < 2 ^ 63 then ([] : Bytes) else [ch '-']) =
      if decide (¬ x.toNat < 2 ^ 63) then [ch '-'] else [] := by
    by_cases hn : x.toNat < 2 ^ 63
    · rw [if_pos hn, if_neg (by rw [decide_eq_true_eq]; exact not_not.2 hn)]
    · rw [if_neg hn, if_pos (by rw [decide_eq_true_eq]; exact hn)]
  rw [es] at h
  generalize decide (¬ x.toNat < 2 ^ 63) = neg at h
  have e0 := ends_core false hpre (ds := []) (fs := []) (by simp) (by simp) false
  rcases split_prefix h.symm with ⟨c, h1, -⟩ | ⟨c, h1, h2⟩
  · cases neg
    · obtain ⟨rfl, -⟩ := List.append_eq_nil_iff.1 h1.symm
      exact e0
    · obtain _ | ⟨a, p⟩ := p
      · exact e0
      · obtain ⟨e1, e2⟩ := List.cons_eq_cons.1 h1
        obtain ⟨rfl, -⟩ := List.append_eq_nil_iff.1 e2.symm
        rw [← e1]
        exact ends_core true hpre (ds := []) (fs := []) (by simp) (by simp) false
  · rw [h1]
    rcases split_prefix h2.symm with ⟨c', h3, -⟩ | ⟨c', h3, h4⟩
    · have := ends_core neg hpre (ds := c) (fs := []) (fun b hb => hds b (by rw [h3]; simp [hb])) (by simp) false
      simpa using this
    · rw [h3]
      obtain _ | ⟨a, c'⟩ := c'
      · have := ends_core neg hpre hds (fs := []) (by simp) false
        simpa using this
      · obtain ⟨e1, e2⟩ := List.cons_eq_cons.1 h4
        rw [← e1]
        have := ends_core neg hpre hds (fs := c') (fun b hb => hfr b (by rw [e2]; simp [hb])) true
        simpa using this

theorem readVec4_of_ends {l : Bytes} (h : Ends l) : ReadVec4FromText l = .error .throws := by
  unfold ReadVec4FromText
  cases h1 : extractDouble l with
  | none => rfl
  | some y =>
    obtain ⟨x, l1⟩ := y
    have := h _ h1
    simp only at this ⊢
    subst this
    rfl

/-- The beginning of a printed point, at most up to the blank before the weight, is not a point. -/
theorem readVec4_short {v : Vec4 F64} (h : SurvivesPt v) {p r : Bytes}
    (hp : p ++ r = fixedText v.x ++ (ch ' ' :: (fixedText v.y ++ (ch ' ' :: (fixedText v.z ++ [ch ' ']))))) :
    ReadVec4FromText p = .error .throws := by
  have hsp : ∀ l : Bytes, (∀ c ∈ (ch ' ' :: l).head?, isDigit c = false) ∧
      (∀ c ∈ (ch ' ' :: l).head?, c ≠ ch 'e' ∧ c ≠ ch 'E') := by
    intro l
    refine ⟨fun c hc => ?_, fun c hc => ?_⟩ <;>
    · simp at hc
      subst hc
      decide
  have hs1 : ∀ c ∈ [ch ' '], isspace c = true := by decide
  rcases split_prefix hp with ⟨c, h1, -⟩ | ⟨c, h1, h2⟩
  · exact readVec4_of_ends (ends_fixed h.1.1 h1 (pre := []) (by simp))
  obtain _ | ⟨a, c⟩ := c
  · rw [List.append_nil] at h1
    exact readVec4_of_ends (ends_fixed h.1.1 (p := p) (r := []) (by rw [h1, List.append_nil]) (pre := []) (by simp))
  obtain ⟨e1, e2⟩ := List.cons_eq_cons.1 h2
  subst e1
  have x1 := extractDouble_text h.1 (pre := []) (by simp) (hsp c).1 (hsp c).2
  rw [List.nil_append, ← h1] at x1
  unfold ReadVec4FromText
  rw [x1]
  simp only
  have fin : ∀ {z : F64} (_ : Spec.FiniteF64 z) {q s : Bytes}, fixedText z = q ++ s →
      ∀ (k : Bytes → F64 → M (Vec4 F64)), (∀ w, k [] w = .error .throws) →
      (match extractDouble (ch ' ' :: q) with
        | none => .error .throws
        | some (y, l2) => k l2 y) = (.error .throws : M (Vec4 F64)) := by
    intro z hz q s hq k hk
    have := ends_fixed hz hq hs1
    cases h1 : extractDouble (ch ' ' :: q) with
    | none => rfl
    | some y =>
      obtain ⟨x, l1⟩ := y
      have := this _ h1
      simp only at this ⊢
      subst this
      exact hk x
  have k0 : extractDouble [] = none := rfl
  have k1 : extractDouble [ch ' '] = none := by decide
  rcases split_prefix e2.symm with ⟨d, h3, -⟩ | ⟨d, h3, h4⟩
  · exact fin h.2.1.1 h3 (fun l2 y => match extractDouble l2 with
      | none => .error .throws
      | some (z, l3) =>
        match extractDouble l3 with
        | none => .error .throws
        | some (w, _) => .ok ⟨v.x, y, z, w⟩) (fun w => by rw [k0])
  obtain _ | ⟨a, d⟩ := d
  · rw [List.append_nil] at h3
    exact fin h.2.1.1 (by rw [h3, List.append_nil]) (fun l2 y => match extractDouble l2 with
      | none => .error .throws
      | some (z, l3) =>
        match extractDouble l3 with
        | none => .error .throws
        | some (w, _) => .ok ⟨v.x, y, z, w⟩) (fun w => by rw [k0])
  obtain ⟨e1, e2⟩ := List.cons_eq_cons.1 h4
  subst e1
  have x2 := extractDouble_text h.2.1 hs1 (hsp d).1 (hsp d).2
  rw [List.singleton_append, ← h3] at x2
  rw [x2]
  simp only
  rcases split_prefix e2.symm with ⟨e, h5, -⟩ | ⟨e, h5, h6⟩
  · exact fin h.2.2.1.1 h5 (fun l3 z => match extractDouble l3 with
        | none => .error .throws
        | some (w, _) => .ok ⟨v.x, v.y, z, w⟩) (fun w => by rw [k0])
  obtain _ | ⟨a, e⟩ := e
  · rw [List.append_nil] at h5
    exact fin h.2.2.1.1 (by rw [h5, List.append_nil]) (fun l3 z => match extractDouble l3 with
        | none => .error .throws
        | some (w, _) => .ok ⟨v.x, v.y, z, w⟩) (fun w => by rw [k0])
  obtain ⟨e1, e2⟩ := List.cons_eq_cons.1 h6
  subst e1
  obtain ⟨rfl, -⟩ := List.append_eq_nil_iff.1 e2.symm
  have x3 := extractDouble_text h.2.2.1 hs1 (hsp []).1 (hsp []).2
  rw [List.singleton_append, ← h5] at x3
  rw [x3]
  simp only
  rw [k1]

/-! ## Integers cut short -/

theorem decNat_prefix (a b : Bytes) : decNat a ≤ decNat (a ++ b) := by
  induction b using List.reverseRecOn with
  | nil => rw [List.append_nil]
  | append_singleton b c ih =>
    rw [← List.append_assoc, decNat_concat]
    omega

theorem extractInt_digits (old : ℤ) {pre ds : Bytes} (hpre : ∀ c ∈ pre, isspace c = true) (hds : ∀ c ∈ ds, isDigit c = true)
    (hne : ds ≠ []) (hb : decNat ds < 2 ^ 31) : extractInt old (pre ++ ds) = ((decNat ds : ℤ), true, []) := by
  have h1 := dropSpace_num false hds hne hpre []
  have h2 := takeSign_num false hds hne []
  simp only [Bool.false_eq_true, if_false, List.nil_append, List.append_nil] at h1 h2
  unfold extractInt
  simp only
  rw [h1, if_neg hne, h2]
  simp only [(scan_all hds).1, (scan_all hds).2]
  rw [if_neg hne]
  simp only [Bool.false_eq_true, if_false]
  rw [if_neg (by omega), if_neg (by omega)]

theorem extractInt_space (old : ℤ) {pre : Bytes} (hpre : ∀ c ∈ pre, isspace c = true) : extractInt old pre = (old, false, []) := by
  unfold extractInt
  simp only [(scan_all hpre).2]
  rfl

theorem intText_pos {n : ℤ} (h : 0 < n) : intText n = natText n.natAbs := by
  unfold intText
  rw [if_neg (by omega)]

end Serial

/-- A beginning of the line of the dimensions alone is not a grid. -/
theorem Surface.fails_dims {s : Surface F64} (h : s.Survives) (junk : Vec4 F64) {l r : Bytes} (hne : l ≠ [])
    (hl : l ++ r = intText s.ControlPoints.UCount ++ ch ' ' :: intText s.ControlPoints.VCount) (g : Grid (Vec4 F64)) :
    Fails (Surface.readGridLines junk [l]) g := by
  have hu := h.uPos
  have hv := h.vPos
  have hui := h.uInt
  have hvi := h.vInt
  rw [intText_pos hu, intText_pos hv] at hl
  have du := natText_digits s.ControlPoints.UCount.natAbs
  have dv := natText_digits s.ControlPoints.VCount.natAbs
  have eu := decNat_natText s.ControlPoints.UCount.natAbs
  have ev := decNat_natText s.ControlPoints.VCount.natAbs
  have neu := natText_ne s.ControlPoints.UCount.natAbs
  have x1 : ∀ c : Bytes, extractInt g.UCount (natText s.ControlPoints.UCount.natAbs ++ ch ' ' :: c) =
      (s.ControlPoints.UCount, true, ch ' ' :: c) := by
    intro c
    have := extractInt_text hui g.UCount (pre := []) (rest := ch ' ' :: c) (by simp)
      (by intro c hc; simp at hc; subst hc; decide)
    rwa [intText_pos hu, List.nil_append] at this
  generalize natText s.ControlPoints.UCount.natAbs = tu at *
  generalize natText s.ControlPoints.VCount.natAbs = tv at *
  have key : ∀ {x : Bytes} {u : ℤ}, extractInt g.UCount l = (u, true, x) → (∀ c ∈ x, isspace c = true) →
      Fails (Surface.readGridLines junk [l]) g := by
    intro x u hx hsp
    unfold Surface.readGridLines
    refine Fails.bind fun st => ?_
    unfold Surface.readDims
    rw [hx]
    simp only [if_true]
    rw [extractInt_space _ hsp]
    simp
  rcases split_prefix hl with ⟨c, h1, -⟩ | ⟨c, h1, h2⟩
  · have hd : ∀ b ∈ l, isDigit b = true := fun b hb => du b (by rw [h1]; simp [hb])
    have hb : decNat l < 2 ^ 31 := by
      have := decNat_prefix l c
      rw [← h1, eu] at this
      have := hui.2
      omega
    have := extractInt_digits g.UCount (pre := []) (by simp) hd hne hb
    exact key this (by simp)
  obtain _ | ⟨a, c⟩ := c
  · rw [List.append_nil] at h1
    subst h1
    have := extractInt_digits g.UCount (pre := []) (by simp) du hne (by have := hui.2; omega)
    exact key this (by simp)
  obtain ⟨e1, e2⟩ := List.cons_eq_cons.1 h2
  subst e1
  replace e2 : tv = c ++ r := e2
  by_cases hc : c = []
  · subst hc
    exact key (by rw [h1]; exact x1 []) (by decide)
  have hd : ∀ b ∈ c, isDigit b = true := fun b hb => dv b (by rw [e2]; simp [hb])
  have hle : decNat c ≤ s.ControlPoints.VCount.natAbs := by
    have := decNat_prefix c r
    rwa [← e2, ev] at this
  have x2 := extractInt_digits g.VCount (pre := [ch ' ']) (by decide) hd hc (by have := hvi.2; omega)
  rw [List.singleton_append] at x2
  have hd' : ∀ st, Surface.readDims l g st = (if 0 < (decNat c : ℤ) then .ok () else .error .throws,
      { g with UCount := s.ControlPoints.UCount, VCount := (decNat c : ℤ) }, st) := by
    intro st
    unfold Surface.readDims
    rw [h1, x1]
    simp only [if_true]
    rw [x2]
    simp only [true_and]
    by_cases h0 : 0 < (decNat c : ℤ)
    · rw [if_pos ⟨hu, h0⟩, if_pos h0]
    · rw [if_neg (fun h => h0 h.2), if_neg h0]
  unfold Surface.readGridLines
  by_cases h0 : 0 < (decNat c : ℤ)
  · simp only [if_pos h0] at hd'
    refine Runs.fails hd' ?_
    refine Runs.fails (runs_get _) ?_
    have hp : 0 < s.ControlPoints.UCount * (decNat c : ℤ) := mul_pos hu h0
    have hlt : s.ControlPoints.UCount * (decNat c : ℤ) ≤ s.ControlPoints.UCount * s.ControlPoints.VCount :=
      mul_le_mul_of_nonneg_left (by omega) hu.le
    have hg : Surface.gridCount s.ControlPoints.UCount (decNat c : ℤ) = .ok (s.ControlPoints.UCount * (decNat c : ℤ)) := by
      unfold Surface.gridCount
      rw [if_pos ⟨by omega, by have := h.count; omega⟩]
    refine Runs.fails (runs_lift hg _) ?_
    rw [List.length_nil, toInt32_of ⟨by norm_num, by norm_num⟩, if_pos (by push_cast; omega)]
    exact fails_fail _
  · simp only [if_neg h0] at hd'
    refine Fails.bind fun st => ?_
    rw [hd']

/-- Too few lines of points. -/
theorem Surface.fails_count {s : Surface F64} (h : s.Survives) (junk : Vec4 F64) {ls : List Bytes}
    (hl : ls.length < s.ControlPoints.Values.length) (g : Grid (Vec4 F64)) :
    Fails (Surface.readGridLines junk ((intText s.ControlPoints.UCount ++ ch ' ' :: intText s.ControlPoints.VCount) :: ls)) g := by
  unfold Surface.readGridLines
  refine Runs.fails (Surface.runs_dims h g) ?_
  refine Runs.fails (runs_get _) ?_
  refine Runs.fails (runs_lift h.gridCount _) ?_
  have hs := h.storage
  have hc := h.count
  rw [toInt32_of ⟨by omega, by omega⟩, if_pos (by omega)]
  exact fails_fail _

/-- Lines of points are read whatever the storage. -/
theorem Surface.runs_pointLines' (vs : List (Vec4 F64)) (h : ∀ v ∈ vs, SurvivesPt v) : ∀ (i : ℕ) (g : Grid (Vec4 F64)), ∃ i' g',
      Runs (σ := Grid (Vec4 F64)) (Load.forEach (fun (i : Nat) l =>
        let t := TrimString l
        if t = [] then pure (i + 1)
        else do
          let v ← Load.lift (ReadVec4FromText t)
          Load.modify fun g => { g with Values := g.Values.set i v }
          pure (i + 1)) (vs.map fun v => vec4Text v ++ []) i) g i' g' := by
  induction vs with
  | nil => exact fun i g => ⟨i, g, runs_nil _ _ _⟩
  | cons w vs ih =>
    intro i g
    have hw := h w (by simp)
    obtain ⟨i', g', h'⟩ := ih (fun x hx => h x (List.mem_cons_of_mem _ hx)) (i + 1) { g with Values := g.Values.set i w }
    refine ⟨i', g', ?_⟩
    rw [List.map_cons]
    refine Runs.cons ?_ h'
    simp only [List.append_nil, hw.trim]
    rw [if_neg hw.ne]
    exact (runs_lift hw.read _).bind ((runs_modify _ _).bind (runs_pure _ _))

/-- The last line of points is not a point. -/
theorem Surface.fails_last {s : Surface F64} (h : s.Survives) (junk : Vec4 F64) {k : ℕ} {t : Bytes}
    (hk : k + 1 = s.ControlPoints.Values.length) (ht : TrimString t = t) (hne : t ≠ [])
    (hr : ReadVec4FromText t = .error .throws) (g : Grid (Vec4 F64)) :
    Fails (Surface.readGridLines junk ((intText s.ControlPoints.UCount ++ ch ' ' :: intText s.ControlPoints.VCount) ::
      (((s.ControlPoints.Values.take k).map fun v => vec4Text v ++ []) ++ [t]))) g := by
  have hlen : (((s.ControlPoints.Values.take k).map fun v => vec4Text v ++ []) ++ [t]).length =
      s.ControlPoints.Values.length := by
    rw [List.length_append, List.length_map, List.length_take, List.length_singleton]
    omega
  unfold Surface.readGridLines
  refine Runs.fails (Surface.runs_dims h g) ?_
  refine Runs.fails (runs_get _) ?_
  refine Runs.fails (runs_lift h.gridCount _) ?_
  rw [hlen, toInt32_of ⟨by omega, by rw [h.storage]; exact h.count⟩, if_neg (by simp), Int.toNat_natCast]
  refine Runs.fails (runs_modify _ _) ?_
  refine Fails.bind ?_
  dsimp only
  obtain ⟨i', g', hrun⟩ := Surface.runs_pointLines' (s.ControlPoints.Values.take k)
    (fun v hv => h.points v (List.mem_of_mem_take hv)) 0
    ⟨s.ControlPoints.UCount, s.ControlPoints.VCount, resize g.Values s.ControlPoints.Values.length junk⟩
  refine Runs.append_fails hrun (Fails.cons ?_)
  rw [ht, if_neg hne]
  exact Fails.bind (fails_lift hr _)

theorem unlines_append (L L' : List Bytes) : unlines (L ++ L') = unlines L ++ unlines L' := by
  simp [unlines]

theorem surfaceText_eq (s : Surface F64) : surfaceText s = unlines (surfaceLines s) := by
  unfold surfaceText surfaceLines unlines
  simp [lit, List.flatMap_map]

theorem surfaceLines_no_newline {s : Surface F64} (h : s.TextOk) : ∀ l ∈ surfaceLines s, ch '\n' ∉ l := by
  intro l hl
  unfold surfaceLines at hl
  simp only [List.mem_cons, List.mem_map] at hl
  rcases hl with rfl | rfl | rfl | rfl | rfl | rfl | rfl | rfl | ⟨v, hv, rfl⟩
  · simp only [List.mem_cons, List.mem_append, not_or]
    exact ⟨by decide, by decide, by decide, by decide, numText_line (intText_chars _)⟩
  · simp only [List.mem_cons, List.mem_append, not_or]
    exact ⟨by decide, by decide, by decide, by decide, numText_line (intText_chars _)⟩
  · decide
  · exact knots_line fun y hy => (h.knotsU y hy).1
  · decide
  · exact knots_line fun y hy => (h.knotsV y hy).1
  · decide
  · simp only [List.mem_cons, List.mem_append, not_or]
    exact ⟨numText_line (intText_chars _), by decide, numText_line (intText_chars _)⟩
  · rw [List.append_nil]
    exact (h.points v hv).not_mem.2

/-- The text before the weight of a printed point. -/
def coordText (v : Vec4 F64) : Bytes := fixedText v.x ++ (ch ' ' :: (fixedText v.y ++ (ch ' ' :: (fixedText v.z ++ [ch ' ']))))

theorem vec4Text_eq (v : Vec4 F64) : vec4Text v = coordText v ++ fixedText v.w := by
  simp [vec4Text, coordText]

theorem part_step {σ : Type} {pk : Bytes → List Bytes → Load σ Unit} {st : TextState} {p r a : Bytes} (hk : st.key ≠ [])
    (hne : p ≠ []) (hp : p ++ r = a) (ha : ∃ c, a.head? = some c ∧ NumChar c) :
    (∀ o, Runs (textStep pk st p) o ⟨st.key, st.lines ++ [TrimString p]⟩ o) ∧ (∃ r', TrimString p ++ r' = a) ∧ TrimString p ≠ [] ∧
      TrimString (TrimString p) = TrimString p := by
  obtain ⟨c, hc, hc'⟩ := ha
  have hh : p.head? = some c := by
    rw [← hp, List.head?_append] at hc
    obtain _ | ⟨d, p⟩ := p
    · exact (hne rfl).elim
    · exact hc
  obtain ⟨⟨r', h1⟩, h2, h3⟩ := trim_prefix (p := p) (by
    intro d hd
    rw [hh, Option.mem_some_iff] at hd
    exact hd ▸ hc'.not_space) hne
  refine ⟨fun o => step_line rfl hk ⟨c, h3.trans hh, hc'.ne.2.2.1⟩, ⟨r' ++ r, ?_⟩, h2, ?_⟩
  · rw [← List.append_assoc, ← h1, hp]
  · obtain ⟨a, b, -, -, -, h1, h2⟩ := trim_spec p
    exact trim_id (fun c hc => (isspace_false_iff c).2 (h1 c hc)) (fun c hc => (isspace_false_iff c).2 (h2 c hc))

theorem textLoop_fails {σ : Type} {pk : Bytes → List Bytes → Load σ Unit} {lines : List Bytes} {b : Bytes}
    (hb : splitBy (ch '\n') b = lines) {st : TextState} {o o' : σ}
    (h : Runs (Load.forEach (textStep pk) lines {}) o st o') (hk : st.key ≠ []) (hp : Fails (pk st.key st.lines) o') :
    (textLoop pk o ⟨b, false⟩).1 = .error .throws := by
  unfold textLoop
  simp only [Bool.false_eq_true, if_false, hb]
  refine Runs.fails h ?_ _
  rw [if_pos hk]
  exact hp

/-- A line that starts with a star but has no colon spoils a knot vector. -/
theorem fails_starLine {l : List F64} (h : ∀ y ∈ l, ReadsBack y) {c : Bytes} (hc : ∀ b ∈ c, isspace b = false)
    (hcomma : ch ',' ∉ c) (k : KnotVector F64) : Fails (readKnotLines (knotLines l ++ [ch '*' :: c])) k := by
  unfold readKnotLines
  refine Runs.append_fails (runs_knotLines l h k) (Fails.cons ?_)
  rw [splitBy_last (by simp only [List.mem_cons, not_or]; exact ⟨by decide, hcomma⟩) (by simp)]
  refine Fails.cons ?_
  dsimp only
  rw [trim_id' (by
    intro b hb
    rcases List.mem_cons.1 hb with rfl | hb
    · decide
    · exact hc b hb), if_neg (by simp)]
  have : extractDouble (ch '*' :: c) = none := by
    unfold extractDouble
    simp only
    rw [List.dropWhile_cons_of_neg (by decide)]
    have : takeSign (ch '*' :: c) = (false, ch '*' :: c) := rfl
    rw [this]
    simp only
    rw [List.takeWhile_cons_of_neg (by decide), List.dropWhile_cons_of_neg (by decide), List.head?_cons]
    have h1 : ¬ (some (ch '*') = some (ch '.')) := by decide
    simp only [if_neg h1, List.append_nil, if_true]
  rw [this]
  exact fails_fail _

theorem unlines_getLast {L : List Bytes} (h : L ≠ []) : (unlines L).getLast? = some (ch '\n') := by
  rw [← List.dropLast_append_getLast h, unlines_append]
  simp [unlines]

theorem getElem?_ge {α : Type} {a b : List α} {k : ℕ} {x : α} (h : (a ++ b)[k]? = some x) (hk : a.length ≤ k) :
    b[k - a.length]? = some x := by
  rwa [List.getElem?_append_right hk] at h

theorem Surface.cut_point {s : Surface F64} (h : s.Survives) (junk : Vec4 F64) (o : Surface F64) {i : ℕ} {v : Vec4 F64}
    {part r b : Bytes} (hv : s.ControlPoints.Values[i]? = some v) (e : vec4Text v = part ++ r)
    (hcond : i + 1 < s.ControlPoints.Values.length ∨ ∃ c, coordText v = part ++ c)
    (hsplit : splitBy (ch '\n') b = surfaceHead s ++ (((ch '*' :: (lit ['C', 'o', 'n', 't', 'r', 'o', 'l', 'P', 'o', 'i', 'n', 't', 's'] ++ ch ':' :: [])) ::
      (intText s.ControlPoints.UCount ++ ch ' ' :: intText s.ControlPoints.VCount) ::
      (s.ControlPoints.Values.take i).map fun v => vec4Text v ++ []) ++ if part = [] then [] else [part])) :
    (textLoop (Surface.processKey junk) o ⟨b, false⟩).1 = .error .throws := by
  have hvm := h.points v (List.mem_of_getElem? hv)
  have hi : i < s.ControlPoints.Values.length := (List.getElem?_eq_some_iff.1 hv).1
  have hlen : ((s.ControlPoints.Values.take i).map fun v => vec4Text v ++ []).length = i := by
    rw [List.length_map, List.length_take, Nat.min_eq_left hi.le]
  have hgrid : ∀ {ls : List Bytes} {g : Surface F64}, (∀ g, Fails (Surface.readGridLines junk ls) g) →
      Fails (Surface.processKey junk (lit ['C', 'o', 'n', 't', 'r', 'o', 'l', 'P', 'o', 'i', 'n', 't', 's']) ls) g := by
    intro ls g hl
    unfold Surface.processKey
    rw [if_neg (by decide), if_neg (by decide), if_neg (by decide), if_neg (by decide), if_pos rfl]
    exact Fails.zoom _ _ (hl _)
  have hhead := Surface.runs_head h.textOk junk o
  have hkey := Surface.runs_key h.textOk junk o
  set D := intText s.ControlPoints.UCount ++ ch ' ' :: intText s.ControlPoints.VCount with hD
  set K := (ch '*' :: (lit ['C', 'o', 'n', 't', 'r', 'o', 'l', 'P', 'o', 'i', 'n', 't', 's'] ++ ch ':' :: [])) with hK
  obtain ⟨c, hc, hc'⟩ := intText_head s.ControlPoints.UCount (ch ' ' :: intText s.ControlPoints.VCount)
  have hpts : Runs (Load.forEach (textStep (Surface.processKey junk)) (K :: D :: (s.ControlPoints.Values.take i).map fun v => vec4Text v ++ [])
      ⟨lit ['K', 'n', 'o', 't', 's', 'V'], knotLines s.KnotsV.Values⟩)
      ⟨s.DegreeU, s.DegreeV, ⟨o.KnotsU.Values ++ s.KnotsU.Values⟩, o.KnotsV, o.ControlPoints⟩
      ⟨lit ['C', 'o', 'n', 't', 'r', 'o', 'l', 'P', 'o', 'i', 'n', 't', 's'],
        D :: (s.ControlPoints.Values.take i).map fun v => vec4Text v ++ []⟩
      ⟨s.DegreeU, s.DegreeV, ⟨o.KnotsU.Values ++ s.KnotsU.Values⟩, ⟨o.KnotsV.Values ++ s.KnotsV.Values⟩, o.ControlPoints⟩ := by
    refine Runs.cons hkey (Runs.cons (step_line (trim_dims _ _) (lit_ne _ _) ⟨c, hc, hc'.ne.2.2.1⟩) ?_)
    exact step_points (pk := Surface.processKey junk) (suf := [])
      (o := (⟨s.DegreeU, s.DegreeV, ⟨o.KnotsU.Values ++ s.KnotsU.Values⟩, ⟨o.KnotsV.Values ++ s.KnotsV.Values⟩,
        o.ControlPoints⟩ : Surface F64)) (fun v hv => by rw [List.append_nil]; exact hv.trim)
      (key := lit ['C', 'o', 'n', 't', 'r', 'o', 'l', 'P', 'o', 'i', 'n', 't', 's']) (by decide) _
      (fun v hv => h.points v (List.mem_of_mem_take hv)) [D]
  by_cases hne : part = []
  · rw [if_pos hne, List.append_nil] at hsplit
    refine textLoop_fails hsplit (hhead.append hpts) (lit_ne _ _) (hgrid fun g => ?_)
    exact Surface.fails_count h junk (by rw [hlen]; exact hi) g
  · rw [if_neg hne] at hsplit
    obtain ⟨h1, ⟨r', h2⟩, h3, h4⟩ := part_step (pk := Surface.processKey junk)
      (st := ⟨lit ['C', 'o', 'n', 't', 'r', 'o', 'l', 'P', 'o', 'i', 'n', 't', 's'],
        D :: (s.ControlPoints.Values.take i).map fun v => vec4Text v ++ []⟩) (lit_ne _ _) hne e.symm
      (by simpa using vec4Text_head hvm.1.1 [])
    refine textLoop_fails hsplit (hhead.append (hpts.append (Runs.cons (h1 _) (runs_nil _ _ _)))) (lit_ne _ _)
      (hgrid fun g => ?_)
    rw [List.cons_append]
    by_cases hin : i + 1 < s.ControlPoints.Values.length
    · exact Surface.fails_count h junk
        (ls := ((s.ControlPoints.Values.take i).map fun v => vec4Text v ++ []) ++ [TrimString part]) (by
        rw [List.length_append, hlen]; exact hin) g
    · refine Surface.fails_last h junk (by omega) h4 h3 ?_ g
      obtain ⟨c, hc⟩ := hcond.resolve_left hin
      obtain ⟨⟨r'', h5⟩, -, -⟩ := trim_prefix (p := part) (by
        intro d hd
        obtain ⟨c, hc, hc'⟩ := vec4Text_head hvm.1.1 []
        rw [List.append_nil, e, List.head?_append] at hc
        rw [Option.mem_def] at hd
        rw [hd] at hc
        have := Option.some.inj hc
        exact this ▸ hc'.not_space) hne
      refine readVec4_short hvm (r := r'' ++ c) ?_
      rw [← List.append_assoc, ← h5, ← hc]
      rfl

/-- A text surface cut inside its last section, without anything of its last number, is refused. -/
theorem Surface.load_cut {s : Surface F64} (h : s.Survives) (junk : Vec4 F64) (o : Surface F64) {cut missing : Bytes}
    (hf : cut ++ missing = (LIBNURBS_MAGIC ++ lit [' ', 'T', 'X', 'T', ' ', 'S', 'U', 'R', 'F', 'A', 'C', 'E']) ++
      ch '\n' :: surfaceText s) (hstar : ch '*' ∉ missing) (hlast : ch ' ' ∈ missing ∨ cut.getLast? = some (ch ' ')) :
    (Surface.LoadFromFile junk o ⟨cut, false⟩).1 = .error .throws := by
  set hdr := LIBNURBS_MAGIC ++ lit [' ', 'T', 'X', 'T', ' ', 'S', 'U', 'R', 'F', 'A', 'C', 'E'] with hhdr
  set K := (ch '*' :: (lit ['C', 'o', 'n', 't', 'r', 'o', 'l', 'P', 'o', 'i', 'n', 't', 's'] ++ ch ':' :: [])) with hK
  set D := intText s.ControlPoints.UCount ++ ch ' ' :: intText s.ControlPoints.VCount with hD
  set P := s.ControlPoints.Values.map fun v => vec4Text v ++ [] with hP
  have hlines : surfaceLines s = surfaceHead s ++ (K :: D :: P) := rfl
  have hnl := surfaceLines_no_newline h.textOk
  rw [surfaceText_eq, ← unlines_cons, hlines] at hf
  obtain ⟨k, part, hk, hcut, hrest⟩ := cut_lines _ hf
  have hlenH : (surfaceHead s).length = 6 := rfl
  -- the cut comes after the last key has begun
  have hk7 : 7 ≤ k := by
    by_contra hlt
    rcases hrest with ⟨-, e, -⟩ | ⟨r, -, e⟩
    · simp only [List.length_cons, List.length_append, hlenH] at e
      omega
    · apply hstar
      rw [e]
      have : K ∈ (hdr :: (surfaceHead s ++ K :: D :: P)).drop (k + 1) := by
        rw [List.drop_succ_cons, List.drop_append_of_le_length (by omega)]
        simp
      have hin : ∀ b ∈ K, b ∈ unlines ((hdr :: (surfaceHead s ++ K :: D :: P)).drop (k + 1)) := fun b hb =>
        List.mem_flatMap.2 ⟨K, this, by simp [hb]⟩
      exact List.mem_append_right _ (List.mem_cons_of_mem _ (hin (ch '*') (by simp [hK])))
  obtain ⟨j, rfl⟩ := Nat.exists_eq_add_of_le hk7
  have htake : (hdr :: (surfaceHead s ++ K :: D :: P)).take (7 + j) = hdr :: (surfaceHead s ++ (K :: D :: P).take j) := by
    rw [show 7 + j = (6 + j) + 1 by omega, List.take_succ_cons, List.take_append, hlenH, List.take_of_length_le (by omega)]
    simp
  have hdrop : ∀ i, (hdr :: (surfaceHead s ++ K :: D :: P)).drop (7 + i) = (K :: D :: P).drop i := by
    intro i
    rw [show 7 + i = (6 + i) + 1 by omega, List.drop_succ_cons, List.drop_append, hlenH, List.drop_eq_nil_of_le (by omega)]
    simp
  have hget : (hdr :: (surfaceHead s ++ K :: D :: P))[7 + j]? = (K :: D :: P)[j]? := by
    rw [show 7 + j = (6 + j) + 1 by omega, List.getElem?_cons_succ, List.getElem?_append_right (by omega), hlenH]
    congr 1
    omega
  rw [htake, unlines_cons, List.append_assoc, List.cons_append] at hcut
  rw [hget, show 7 + j + 1 = 7 + (j + 1) by omega, hdrop] at hrest
  have hpart : ch '\n' ∉ part := by
    rcases hrest with ⟨e, -⟩ | ⟨r, e, -⟩
    · subst e; simp
    · intro hc
      exact hnl (part ++ r) (by rw [hlines]; exact List.mem_append_right _ (List.mem_of_getElem? e)) (by simp [hc])
  have hsplit : splitBy (ch '\n') (unlines (surfaceHead s ++ (K :: D :: P).take j) ++ part) =
      surfaceHead s ++ ((K :: D :: P).take j ++ if part = [] then [] else [part]) := by
    rw [splitBy_unlines _ _ hpart, List.append_assoc]
    intro l hl
    apply hnl l
    rw [hlines]
    rcases List.mem_append.1 hl with hl | hl
    · exact List.mem_append_left _ hl
    · exact List.mem_append_right _ (List.mem_of_mem_take hl)
  rw [hcut]
  unfold Surface.LoadFromFile
  rw [bind_of_ok (readHeader_ok (b := false) (by decide) (by decide) (by decide) (by decide) o _), if_neg (by decide)]
  have hgrid : ∀ {ls : List Bytes} {g : Surface F64}, (∀ g, Fails (Surface.readGridLines junk ls) g) →
      Fails (Surface.processKey junk (lit ['C', 'o', 'n', 't', 'r', 'o', 'l', 'P', 'o', 'i', 'n', 't', 's']) ls) g := by
    intro ls g hl
    unfold Surface.processKey
    rw [if_neg (by decide), if_neg (by decide), if_neg (by decide), if_neg (by decide), if_pos rfl]
    exact Fails.zoom _ _ (hl _)
  have hhead := Surface.runs_head h.textOk junk o
  have hkey := Surface.runs_key h.textOk junk o
  obtain _ | _ | i := j
  · -- the key line itself is cut
    rcases hrest with ⟨-, e, -⟩ | ⟨r, e, e'⟩
    · simp only [List.length_cons, List.length_append, hlenH] at e
      omega
    rw [List.getElem?_cons_zero] at e
    have e := (Option.some.inj e).symm
    obtain _ | ⟨x, c⟩ := part
    · exact (hstar (by rw [e', show r = K from e]; simp [hK])).elim
    obtain ⟨e1, e2⟩ := List.cons_eq_cons.1 (show x :: (c ++ r) = ch '*' ::
      (lit ['C', 'o', 'n', 't', 'r', 'o', 'l', 'P', 'o', 'i', 'n', 't', 's'] ++ ch ':' :: []) from e)
    subst e1
    rw [if_neg (by simp), List.take_zero, List.nil_append] at hsplit
    have short : ∀ c', lit ['C', 'o', 'n', 't', 'r', 'o', 'l', 'P', 'o', 'i', 'n', 't', 's'] = c ++ c' →
        (textLoop (Surface.processKey junk) o ⟨unlines (surfaceHead s ++ List.take 0 (K :: D :: P)) ++ ch '*' :: c, false⟩).1 =
          .error .throws := by
      intro c' hc'
      have hcm : ∀ b ∈ c, b ∈ lit ['C', 'o', 'n', 't', 'r', 'o', 'l', 'P', 'o', 'i', 'n', 't', 's'] := fun b hb => by
        rw [hc']; simp [hb]
      have hall : ∀ b ∈ lit ['C', 'o', 'n', 't', 'r', 'o', 'l', 'P', 'o', 'i', 'n', 't', 's'],
          isspace b = false ∧ b ≠ ch ':' ∧ b ≠ ch ',' := by decide
      have hsp : ∀ b ∈ c, isspace b = false := fun b hb => (hall b (hcm b hb)).1
      have hcol : ch ':' ∉ ch '*' :: c := by
        simp only [List.mem_cons, not_or]
        exact ⟨by decide, fun hb => (hall _ (hcm _ hb)).2.1 rfl⟩
      refine textLoop_fails (o' := ⟨s.DegreeU, s.DegreeV, ⟨o.KnotsU.Values ++ s.KnotsU.Values⟩, o.KnotsV, o.ControlPoints⟩)
        hsplit (hhead.append (Runs.cons (b' := ⟨lit ['K', 'n', 'o', 't', 's', 'V'],
        knotLines s.KnotsV.Values ++ [ch '*' :: c]⟩) ?_ (runs_nil _ _ _))) (lit_ne _ _) ?_
      · unfold textStep
        rw [trim_id' (by
          intro b hb
          rcases List.mem_cons.1 hb with rfl | hb
          · decide
          · exact hsp b hb)]
        dsimp only
        rw [if_neg (by simp), if_neg (fun h => hcol h.2), if_neg (lit_ne _ _)]
        exact runs_pure _ _
      · unfold Surface.processKey
        dsimp only
        rw [if_neg (by decide), if_neg (by decide), if_neg (by decide), if_pos rfl]
        exact Fails.zoom _ _ (fails_starLine h.knotsV hsp (fun hb => (hall _ (hcm _ hb)).2.2 rfl) _)
    rcases split_prefix e2 with ⟨c', h1, -⟩ | ⟨c', h1, h2⟩
    · exact short c' h1
    · obtain _ | ⟨y, c'⟩ := c'
      · exact short [] (by rw [h1, List.append_nil, List.append_nil])
      · obtain ⟨e3, e4⟩ := List.cons_eq_cons.1 h2
        obtain ⟨rfl, -⟩ := List.append_eq_nil_iff.1 e4.symm
        subst e3
        rw [h1] at hsplit ⊢
        refine textLoop_fails hsplit (hhead.append (Runs.cons hkey (runs_nil _ _ _))) (lit_ne _ _) (hgrid fun g => ?_)
        exact fails_fail _
  · -- the line of the dimensions is cut
    rcases hrest with ⟨-, e, -⟩ | ⟨r, e, e'⟩
    · simp only [List.length_cons, List.length_append, hlenH] at e
      omega
    have e : part ++ r = D := (Option.some.inj (by simpa using e)).symm
    by_cases hne : part = []
    · rw [if_pos hne, List.append_nil] at hsplit
      refine textLoop_fails hsplit (hhead.append (Runs.cons hkey (runs_nil _ _ _))) (lit_ne _ _) (hgrid fun g => ?_)
      exact fails_fail _
    · rw [if_neg hne] at hsplit
      obtain ⟨h1, ⟨r', h2⟩, h3, -⟩ := part_step (pk := Surface.processKey junk)
        (st := ⟨lit ['C', 'o', 'n', 't', 'r', 'o', 'l', 'P', 'o', 'i', 'n', 't', 's'], []⟩) (lit_ne _ _) hne e (intText_head _ _)
      refine textLoop_fails hsplit (hhead.append (Runs.cons hkey (Runs.cons (h1 _) (runs_nil _ _ _)))) (lit_ne _ _)
        (hgrid fun g => ?_)
      exact Surface.fails_dims h junk h3 h2 g
  · -- a line of a point is cut
    have hP' : (K :: D :: P).take (i + 1 + 1) = K :: D :: P.take i := rfl
    rcases hrest with ⟨e1, -, e2⟩ | ⟨r, e, e'⟩
    · exfalso
      rcases hlast with hl | hl
      · rw [e2] at hl; simp at hl
      · rw [hcut, e1, List.append_nil, List.getLast?_append, ← List.singleton_append, List.getLast?_append,
          unlines_getLast (by simp [surfaceHead])] at hl
        exact absurd (Option.some.inj hl) (by decide)
    rw [List.getElem?_cons_succ, List.getElem?_cons_succ, hP, List.getElem?_map] at e
    obtain ⟨v, hv, e⟩ := Option.map_eq_some_iff.1 e
    rw [List.append_nil] at e
    have hvm := h.points v (List.mem_of_getElem? hv)
    have hi : i < s.ControlPoints.Values.length := (List.getElem?_eq_some_iff.1 hv).1
    have hPt : P.take i = (s.ControlPoints.Values.take i).map fun v => vec4Text v ++ [] := by rw [hP, List.map_take]
    rw [hP', hPt] at hsplit ⊢
    refine Surface.cut_point h junk o hv e ?_ hsplit
    by_cases hin : i + 1 < s.ControlPoints.Values.length
    · exact .inl hin
    · right
      have hmiss : missing = r ++ [ch '\n'] := by
        rw [e', List.drop_eq_nil_of_le]
        · rfl
        · simp only [List.length_cons, hP, List.length_map]; omega
      have hw : ch ' ' ∉ fixedText v.w := fun hc => (fixedText_chars hvm.2.2.2.1 _ hc).ne.2.2.2.1 rfl
      rw [vec4Text_eq] at e
      rcases split_prefix e.symm with ⟨c, h1, -⟩ | ⟨c, h1, h2⟩
      · exact ⟨c, h1⟩
      · obtain _ | ⟨x, c⟩ := c
        · exact ⟨[], by rw [h1, List.append_nil, List.append_nil]⟩
        · exfalso
          apply hw
          rw [h2]
          rcases hlast with hl | hl
          · rw [hmiss, List.mem_append, List.mem_singleton] at hl
            rcases hl with hl | hl
            · exact List.mem_append_right _ hl
            · exact absurd hl (by decide)
          · rw [hcut, h1, ← List.cons_append, ← List.append_assoc, ← List.append_assoc, List.getLast?_append] at hl
            refine List.mem_append_left _ (List.mem_of_getLast? (l := x :: c) ?_)
            cases hx : (x :: c).getLast? with
            | none => simp at hx
            | some y => rw [hx] at hl; exact hl

/-! ## Curves -/

theorem curveText_eq (c : Curve F64) : curveText c = unlines (curveLines c) := by
  unfold curveText curveLines unlines
  simp [lit, List.flatMap_map]

theorem curveLines_no_newline {c : Curve F64} (h : c.Survives) : ∀ l ∈ curveLines c, ch '\n' ∉ l := by
  intro l hl
  unfold curveLines at hl
  simp only [List.mem_cons, List.mem_map] at hl
  rcases hl with rfl | rfl | rfl | rfl | ⟨v, hv, rfl⟩
  · simp only [List.mem_cons, List.mem_append, not_or]
    exact ⟨by decide, by decide, by decide, by decide, numText_line (intText_chars _)⟩
  · decide
  · exact knots_line fun y hy => (h.knots y hy).1
  · decide
  · rw [List.mem_append, not_or]
    exact ⟨(h.points v hv).not_mem.2, by decide⟩

/-- A token that is not a point after lines of points. -/
theorem Curve.fails_points (l : List (Vec4 F64)) (h : ∀ v ∈ l, SurvivesPt v) {t : Bytes} (ht : TrimString t = t) (hne : t ≠ [])
    (hcomma : ch ',' ∉ t) (hr : ReadVec4FromText t = .error .throws) (o : Curve F64) :
    Fails (Curve.processKey (lit ['C', 'o', 'n', 't', 'r', 'o', 'l', 'P', 'o', 'i', 'n', 't', 's'])
      ((l.map fun v => vec4Text v ++ [ch ',']) ++ [t])) o := by
  have hrun := Curve.runs_points l h o
  unfold Curve.processKey at hrun ⊢
  rw [if_neg (by decide), if_neg (by decide), if_pos rfl] at hrun ⊢
  refine Runs.append_fails hrun (Fails.cons ?_)
  rw [splitBy_last hcomma hne]
  refine Fails.cons ?_
  rw [ht, if_neg hne]
  exact Fails.bind (fails_lift hr _)

theorem Curve.cut_point {c : Curve F64} (h : c.Survives) (o : Curve F64) {i : ℕ} {v : Vec4 F64}
    {part r b : Bytes} (hv : c.ControlPoints[i]? = some v) (e : coordText v = part ++ r) (hne : part ≠ [])
    (hsplit : splitBy (ch '\n') b = curveHead c ++ ((c.ControlPoints.take i).map fun v => vec4Text v ++ [ch ',']) ++ [part]) :
    (textLoop Curve.processKey o ⟨b, false⟩).1 = .error .throws := by
  have hvm := h.points v (List.mem_of_getElem? hv)
  have hhd : ∃ d, (coordText v).head? = some d ∧ NumChar d := by
    obtain ⟨d, hd, hd'⟩ := vec4Text_head hvm.1.1 []
    refine ⟨d, ?_, hd'⟩
    rw [List.append_nil, vec4Text_eq, List.head?_append] at hd
    cases hx : (coordText v).head? with
    | none => exact absurd (List.head?_eq_none_iff.1 hx) (by simp [coordText])
    | some y => rw [hx] at hd; exact hd
  obtain ⟨h1, ⟨r', h2⟩, h3, h4⟩ := part_step (pk := Curve.processKey)
    (st := ⟨lit ['C', 'o', 'n', 't', 'r', 'o', 'l', 'P', 'o', 'i', 'n', 't', 's'],
      (c.ControlPoints.take i).map fun v => vec4Text v ++ [ch ',']⟩) (lit_ne _ _) hne e.symm hhd
  have hpts := step_points (pk := Curve.processKey) (suf := [ch ','])
    (o := (⟨c.Degree, ⟨o.Knots.Values ++ c.Knots.Values⟩, o.ControlPoints⟩ : Curve F64)) (fun v hv => hv.trim_comma)
    (key := lit ['C', 'o', 'n', 't', 'r', 'o', 'l', 'P', 'o', 'i', 'n', 't', 's']) (by decide) (c.ControlPoints.take i)
    (fun v hv => h.points v (List.mem_of_mem_take hv)) []
  rw [List.nil_append] at hpts
  refine textLoop_fails hsplit (((Curve.runs_head h o).append hpts).append (Runs.cons (h1 _) (runs_nil _ _ _))) (lit_ne _ _) ?_
  refine Curve.fails_points _ (fun v hv => h.points v (List.mem_of_mem_take hv)) h4 h3 ?_ ?_ _
  · intro hc
    have : ch ',' ∈ vec4Text v := by rw [vec4Text_eq, ← h2]; simp [hc]
    exact hvm.not_mem.1 this
  · exact readVec4_short hvm h2

/-- A text curve cut inside a point, before the weight, is refused. -/
theorem Curve.load_cut {c : Curve F64} (h : c.Survives) (junk : Vec4 F64) (o : Curve F64) {cut missing front l : Bytes}
    (hf : cut ++ missing = (LIBNURBS_MAGIC ++ lit [' ', 'T', 'X', 'T', ' ', 'C', 'U', 'R', 'V', 'E']) ++
      ch '\n' :: curveText c) (hstar : ch '*' ∉ missing) (hc : cut = front ++ ch '\n' :: l) (hl : ch '\n' ∉ l)
    (hls : ch '*' ∉ l) (hlne : l ≠ []) (hsh : l.count (ch ' ') < 3 ∨ l.getLast? = some (ch ' ')) :
    (Curve.LoadFromFile junk o ⟨cut, false⟩).1 = .error .throws := by
  set hdr := LIBNURBS_MAGIC ++ lit [' ', 'T', 'X', 'T', ' ', 'C', 'U', 'R', 'V', 'E'] with hhdr
  set P := c.ControlPoints.map fun v => vec4Text v ++ [ch ','] with hP
  have hlines : curveLines c = curveHead c ++ P := rfl
  have hnl := curveLines_no_newline h
  rw [curveText_eq, ← unlines_cons, hlines] at hf
  obtain ⟨k, part, hk, hcut, hrest⟩ := cut_lines _ hf
  have hlenH : (curveHead c).length = 4 := rfl
  have hnl' : ∀ x ∈ hdr :: (curveHead c ++ P), ch '\n' ∉ x := by
    intro x hx
    rcases List.mem_cons.1 hx with rfl | hx
    · decide
    · exact hnl x hx
  have hpart : ch '\n' ∉ part := by
    rcases hrest with ⟨e, -⟩ | ⟨r, e, -⟩
    · subst e; simp
    · intro hc
      exact hnl' (part ++ r) (List.mem_of_getElem? e) (by simp [hc])
  set K : Bytes := (ch '*' :: (lit ['C', 'o', 'n', 't', 'r', 'o', 'l', 'P', 'o', 'i', 'n', 't', 's'] ++ ch ':' :: [])) with hK
  have hK4 : (hdr :: (curveHead c ++ P))[4]? = some K := rfl
  have hk4 : 4 ≤ k := by
    by_contra hlt
    rcases hrest with ⟨-, e, -⟩ | ⟨r, -, e⟩
    · simp only [List.length_cons, List.length_append, hlenH] at e
      omega
    · apply hstar
      rw [e]
      have : K ∈ (hdr :: (curveHead c ++ P)).drop (k + 1) := by
        refine List.mem_of_getElem? (i := 3 - k) ?_
        rw [List.getElem?_drop, ← hK4]
        congr 1
        omega
      exact List.mem_append_right _ (List.mem_cons_of_mem _ (List.mem_flatMap.2 ⟨K, this, by simp [hK]⟩))
  -- the last line of the cut
  have hpl : part = l := by
    have hne : (hdr :: (curveHead c ++ P)).take k ≠ [] := by
      intro e
      have := congrArg List.length e
      rw [List.length_take, List.length_nil, Nat.min_eq_left hk] at this
      omega
    have e1 : unlines ((hdr :: (curveHead c ++ P)).take k) = unlines ((hdr :: (curveHead c ++ P)).take k).dropLast ++
        ((hdr :: (curveHead c ++ P)).take k).getLast hne ++ [ch '\n'] := by
      conv_lhs => rw [← List.dropLast_append_getLast hne, unlines_append]
      simp [unlines]
    rw [e1, hc, List.append_assoc _ [ch '\n'], List.singleton_append] at hcut
    exact (last_line hl hpart hcut).symm
  subst hpl
  rcases hrest with ⟨e, -⟩ | ⟨r, e, e'⟩
  · exact (hlne e).elim
  obtain rfl | ⟨i, rfl⟩ : k = 4 ∨ ∃ i, k = 5 + i := by
    rcases Nat.eq_or_lt_of_le hk4 with h | h
    · exact .inl h.symm
    · exact .inr ⟨k - 5, by omega⟩
  · rw [hK4] at e
    have e := Option.some.inj e
    obtain _ | ⟨x, d⟩ := part
    · exact (hlne rfl).elim
    obtain ⟨e1, -⟩ := List.cons_eq_cons.1 (show ch '*' :: _ = x :: (d ++ r) from e)
    exact (hls (by simp [← e1])).elim
  have htake : (hdr :: (curveHead c ++ P)).take (5 + i) = hdr :: (curveHead c ++ P.take i) := by
    rw [show 5 + i = (4 + i) + 1 by omega, List.take_succ_cons, List.take_append, hlenH, List.take_of_length_le (by omega)]
    simp
  have hget : (hdr :: (curveHead c ++ P))[5 + i]? = P[i]? := by
    rw [show 5 + i = (4 + i) + 1 by omega, List.getElem?_cons_succ, List.getElem?_append_right (by omega), hlenH]
    congr 1
    omega
  rw [hget, hP, List.getElem?_map] at e
  obtain ⟨v, hv, e⟩ := Option.map_eq_some_iff.1 e
  have hvm := h.points v (List.mem_of_getElem? hv)
  have hpre : ∃ r, coordText v = part ++ r := by
    rw [vec4Text_eq, List.append_assoc] at e
    rcases split_prefix e.symm with ⟨d, h1, -⟩ | ⟨d, h1, h2⟩
    · exact ⟨d, h1⟩
    · obtain _ | ⟨x, d⟩ := d
      · exact ⟨[], by rw [h1, List.append_nil, List.append_nil]⟩
      · exfalso
        have hw : ch ' ' ∉ fixedText v.w ++ [ch ','] := by
          rw [List.mem_append, not_or]
          exact ⟨fun hc => (fixedText_chars hvm.2.2.2.1 _ hc).ne.2.2.2.1 rfl, by decide⟩
        rcases hsh with hs | hs
        · rw [h1] at hs
          simp only [coordText, List.count_append, List.count_cons, beq_self_eq_true, if_true] at hs
          omega
        · apply hw
          rw [h2]
          rw [h1, List.getLast?_append] at hs
          refine List.mem_append_left _ (List.mem_of_getLast? (l := x :: d) ?_)
          cases hx : (x :: d).getLast? with
          | none => simp at hx
          | some y => rw [hx] at hs; exact hs
  obtain ⟨r', hr'⟩ := hpre
  rw [htake, unlines_cons, List.append_assoc, List.cons_append] at hcut
  rw [hcut]
  unfold Curve.LoadFromFile
  rw [bind_of_ok (readHeader_ok (b := false) (by decide) (by decide) (by decide) (by decide) o _), if_neg (by decide)]
  refine Curve.cut_point h o hv hr' hlne ?_
  rw [splitBy_unlines _ _ hpart, if_neg hlne, hP, List.map_take]
  intro x hx
  apply hnl x
  rw [hlines]
  rcases List.mem_append.1 hx with hx | hx
  · exact List.mem_append_left _ hx
  · exact List.mem_append_right _ (List.mem_of_mem_take hx)

end Nurbs
