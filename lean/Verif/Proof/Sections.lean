import Verif.Proof.TextLayout
import Verif.Spec.Sections

/-! # The order of the sections of a text file -/

set_option linter.unusedSectionVars false

namespace Nurbs

open Spec Serial Utils

variable {σ τ α β γ : Type}

namespace Load

theorem bind_bind' (x : Load σ α) (f : α → Load σ β) (g : β → Load σ γ) : x >>= f >>= g = x >>= fun a => f a >>= g := by
  funext o s
  change Load.bind (Load.bind x f) g o s = Load.bind x (fun a => Load.bind (f a) g) o s
  unfold Load.bind
  generalize x o s = y
  obtain ⟨r | a, o', s'⟩ := y <;> rfl

theorem bind_unit (x : Load σ Unit) : (x >>= fun _ => pure ()) = x := by
  funext o s
  change Load.bind x _ o s = _
  unfold Load.bind
  generalize x o s = y
  obtain ⟨r | a, o', s'⟩ := y <;> rfl

theorem pure_bind' (a : α) (f : α → Load σ β) : (pure a >>= f : Load σ β) = f a := rfl

/-- What a statement leaves as it is, whatever the outcome. -/
def Keeps (f : σ → γ) (x : Load σ α) : Prop := ∀ o s, f (x o s).2.1 = f o

/-- The stream is not touched. -/
def Still (x : Load σ α) : Prop := ∀ o s, (x o s).2.2 = s

theorem Keeps.bind {f : σ → γ} {x : Load σ α} {g : α → Load σ β} (hx : Keeps f x) (hg : ∀ a, Keeps f (g a)) : Keeps f (x >>= g) := by
  intro o s
  change f (Load.bind x g o s).2.1 = _
  unfold Load.bind
  have := hx o s
  generalize x o s = y at this
  obtain ⟨r | a, o', s'⟩ := y
  · exact this
  · exact (hg a o' s').trans this

theorem Still.bind {x : Load σ α} {g : α → Load σ β} (hx : Still x) (hg : ∀ a, Still (g a)) : Still (x >>= g) := by
  intro o s
  change (Load.bind x g o s).2.2 = _
  unfold Load.bind
  have := hx o s
  generalize x o s = y at this
  obtain ⟨r | a, o', s'⟩ := y
  · exact this
  · exact (hg a o' s').trans this

theorem Keeps.forEach {f : σ → γ} {g : β → α → Load σ β} (hg : ∀ b a, Keeps f (g b a)) : ∀ (l : List α) (b : β), Keeps f (Load.forEach g l b)
  | [], _ => fun _ _ => rfl
  | a :: l, b => Keeps.bind (hg b a) fun b' => Keeps.forEach hg l b'

theorem Still.forEach {g : β → α → Load σ β} (hg : ∀ b a, Still (g b a)) : ∀ (l : List α) (b : β), Still (Load.forEach g l b)
  | [], _ => fun _ _ => rfl
  | a :: l, b => Still.bind (hg b a) fun b' => Still.forEach hg l b'

theorem still_pure (a : α) : Still (pure a : Load σ α) := fun _ _ => rfl
theorem still_fail (e : Err) : Still (fail e : Load σ α) := fun _ _ => rfl
theorem still_get : Still (get : Load σ σ) := fun _ _ => rfl
theorem still_modify (f : σ → σ) : Still (modify f) := fun _ _ => rfl
theorem still_lift (x : M α) : Still (lift x : Load σ α) := fun _ _ => rfl

theorem Still.ite {p : Prop} [Decidable p] {x y : Load σ α} (hx : Still x) (hy : Still y) : Still (if p then x else y) := by
  split
  exacts [hx, hy]

theorem Keeps.zoom {f : σ → γ} {g : σ → τ} {p : τ → σ → σ} {x : Load τ α} (h : ∀ t o, f (p t o) = f o) : Keeps f (zoom g p x) :=
  fun _ _ => h _ _

/-- Statements for different members may be exchanged. -/
theorem zoom_comm {τ' : Type} {g : σ → τ} {p : τ → σ → σ} {g' : σ → τ'} {p' : τ' → σ → σ} {x : Load τ Unit} {x' : Load τ' Unit}
    (h : ∀ t o, g (p' t o) = g o) (h' : ∀ t o, g' (p t o) = g' o) (hc : ∀ t t' o, p' t' (p t o) = p t (p' t' o))
    (hx : Still x) (hx' : Still x') {o o' : σ} {s s' : IStream}
    (e : (zoom g p x >>= fun _ => zoom g' p' x') o s = (.ok (), o', s')) : (zoom g' p' x' >>= fun _ => zoom g p x) o s = (.ok (), o', s') := by
  change Load.bind _ _ o s = _ at e
  change Load.bind _ _ o s = _
  unfold Load.bind zoom at e ⊢
  have k := hx (g o) s
  have k' := hx' (g' o) s
  simp only at e ⊢
  generalize hy : x (g o) s = y at e k
  generalize hy' : x' (g' o) s = y' at e k'
  obtain ⟨r | a, t, w⟩ := y
  · exact absurd (congrArg Prod.fst e) (by simp)
  · obtain rfl : w = s := k
    simp only [h', hy'] at e
    obtain ⟨r' | a', t', w'⟩ := y'
    · exact absurd (congrArg Prod.fst e) (by simp)
    · obtain rfl : w' = w := k'
      simp only [h, hy]
      rw [← e, hc]

/-- A loop over statements for one member. -/
theorem forEach_zoom {g : σ → τ} {p : τ → σ → σ} (h1 : ∀ t o, g (p t o) = t) (h2 : ∀ t t' o, p t (p t' o) = p t o) (h3 : ∀ o, p (g o) o = o)
    (f : β → α → Load τ β) : ∀ (l : List α) (b : β), Load.forEach (fun b a => zoom g p (f b a)) l b = zoom g p (Load.forEach f l b)
  | [], b => by
    funext o s
    change (_, o, s) = (_, p (g o) o, s)
    rw [h3]
  | a :: l, b => by
    funext o s
    change Load.bind _ _ o s = _
    have ih := fun b' => forEach_zoom h1 h2 h3 f l b'
    unfold Load.bind
    simp only [ih]
    unfold zoom
    simp only [Load.forEach]
    unfold Load.bind
    generalize f b a (g o) s = y
    obtain ⟨r | b', t, s'⟩ := y
    · rfl
    · simp only [h1, h2]

end Load

/-! ## Sections -/

/-- What is read of the lines of a section. -/
def bodyLines : List Bytes → List Bytes
  | [] => []
  | x :: mid => (TrimString (((TrimString x).dropWhile (· != ch ':')).drop 1) :: mid.map TrimString).filter fun l => l ≠ []

/-- The sections one after another. -/
def runSections (pk : Bytes → List Bytes → Load σ Unit) (ss : List (Bytes × List Bytes)) : Load σ Unit :=
  Load.forEach (fun _ s => pk s.1 (bodyLines s.2)) ss ()

section
variable {pk : Bytes → List Bytes → Load σ Unit}

theorem collect_eq : ∀ (l : List Bytes) (st : TextState), (∀ x ∈ l, NoKey x) → st.key ≠ [] →
    Load.forEach (textStep pk) l st = pure ⟨st.key, st.lines ++ (l.map TrimString).filter fun l => l ≠ []⟩
  | [], st, _, _ => by simp only [List.map_nil, List.filter_nil, List.append_nil]; rfl
  | x :: l, st, h, hk => by
    by_cases b : Blank x
    · rw [forEach_pure (textStep_blank b st), collect_eq l st (fun y hy => h y (by simp [hy])) hk, List.map_cons, List.filter_cons_of_neg]
      simp [trim_blank_iff.2 b]
    · rw [forEach_pure (b' := ⟨st.key, st.lines ++ [TrimString x]⟩) (by rw [textStep_noKey (h x (by simp)) b, if_neg hk]),
        collect_eq l ⟨st.key, st.lines ++ [TrimString x]⟩ (fun y hy => h y (by simp [hy])) hk, List.map_cons, List.filter_cons_of_pos]
      · simp
      · simpa using fun e => b (trim_blank_iff.1 e)

theorem section_step {k : Bytes} {ls : List Bytes} (h : IsSection k ls) (st : TextState) (hst : st.key = [] → st.lines = []) :
    Load.forEach (textStep pk) ls st = finish pk st >>= fun _ => pure ⟨k, bodyLines ls⟩ := by
  obtain ⟨x, n, v, mid, rfl, hx, ⟨a, b, hs, ha, hb, h1, h2⟩, hne, hm⟩ := h
  have hk : TrimString n = k := trim_of hs (blank_space ha) (blank_space hb) (fun c hc => (isspace_false_iff c).2 (h1 c hc))
    (fun c hc => (isspace_false_iff c).2 (h2 c hc))
  have hv : TrimString (((TrimString x).dropWhile (· != ch ':')).drop 1) = TrimString v := by
    obtain ⟨w, hw, hn, hval⟩ := trim_keyLine hx
    simp only [hw, (scan_key hn).2, hval]
  have body : bodyLines (x :: mid) = (if TrimString v = [] then [] else [TrimString v]) ++ (mid.map TrimString).filter fun l => l ≠ [] := by
    unfold bodyLines
    simp only [hv]
    split
    · rename_i e
      rw [List.filter_cons_of_neg (by simp [e])]; rfl
    · rename_i e
      rw [List.filter_cons_of_pos (by simpa using e)]; rfl
  rw [forEach_step, textStep_key hx, hk, body]
  unfold finish
  split
  · rw [Load.bind_bind']
    congr 1
    funext _
    rw [Load.pure_bind', collect_eq mid _ hm hne]
  · rename_i hz
    rw [hst (not_not.1 hz), List.nil_append, Load.pure_bind', Load.pure_bind', collect_eq mid _ hm hne]

theorem sections_run : ∀ (ss : List (Bytes × List Bytes)) (st : TextState), (∀ s ∈ ss, IsSection s.1 s.2) → (st.key = [] → st.lines = []) →
    Load.forEach (textStep pk) (ss.flatMap fun s => s.2) st >>= finish pk = finish pk st >>= fun _ => runSections pk ss
  | [], st, _, _ => by
    change (pure st >>= finish pk) = (finish pk st >>= fun _ => pure ())
    rw [Load.bind_unit, Load.pure_bind']
  | a :: ss, st, h, hst => by
    have ha := h a (by simp)
    have hne : a.1 ≠ [] := by
      obtain ⟨_, _, _, _, _, _, _, hne, _⟩ := ha
      exact hne
    rw [List.flatMap_cons, Load.forEach_append, section_step ha st hst]
    change ((finish pk st >>= fun _ => pure ⟨a.1, bodyLines a.2⟩) >>= fun b' => Load.forEach (textStep pk) (ss.flatMap fun s => s.2) b') >>= finish pk = _
    rw [Load.bind_bind', Load.bind_bind']
    congr 1
    funext _
    rw [Load.pure_bind', sections_run ss _ (fun s hs => h s (by simp [hs])) (fun e => absurd e hne)]
    unfold finish
    rw [if_pos hne]
    rfl

/-- Sections of different names may be exchanged. -/
def Commute (pk : Bytes → List Bytes → Load σ Unit) : Prop := ∀ k k' ls ls' o o' s s', k ≠ k' →
  (pk k ls >>= fun _ => pk k' ls') o s = (.ok (), o', s') → (pk k' ls' >>= fun _ => pk k ls) o s = (.ok (), o', s')

theorem run_front (hc : Commute pk) (a : Bytes × List Bytes) : ∀ (p q : List (Bytes × List Bytes)) (o o' : σ) (s s' : IStream), (∀ b ∈ p, b.1 ≠ a.1) →
    runSections pk (p ++ a :: q) o s = (.ok (), o', s') → runSections pk (a :: (p ++ q)) o s = (.ok (), o', s')
  | [], _, _, _, _, _, _, h => h
  | b :: p, q, o, o', s, s', hp, h => by
    change (pk b.1 (bodyLines b.2) >>= fun _ => runSections pk (p ++ a :: q)) o s = _ at h
    obtain ⟨_, o₁, s₁, h1, h2⟩ := Load.bind_inv h
    have h3 := run_front hc a p q _ _ _ _ (fun c hc => hp c (by simp [hc])) h2
    have h4 : ((pk b.1 (bodyLines b.2) >>= fun _ => pk a.1 (bodyLines a.2)) >>= fun _ => runSections pk (p ++ q)) o s = (.ok (), o', s') := by
      rw [Load.bind_bind']
      change Load.bind _ _ o s = _
      unfold Load.bind
      rw [h1]
      exact h3
    obtain ⟨_, o₂, s₂, h5, h6⟩ := Load.bind_inv h4
    have h7 := hc _ _ _ _ _ _ _ _ (hp b (by simp)) h5
    have h8 : ((pk a.1 (bodyLines a.2) >>= fun _ => pk b.1 (bodyLines b.2)) >>= fun _ => runSections pk (p ++ q)) o s = (.ok (), o', s') := by
      change Load.bind _ _ o s = _
      unfold Load.bind
      rw [h7]
      exact h6
    rw [Load.bind_bind'] at h8
    exact h8

theorem run_rearranged (hc : Commute pk) : ∀ (ss ss' : List (Bytes × List Bytes)) (o o' : σ) (s s' : IStream), Rearranged ss ss' →
    runSections pk ss' o s = (.ok (), o', s') → runSections pk ss o s = (.ok (), o', s')
  | [], ss', o, o', s, s', h, e => by
    obtain rfl : ss' = [] := by
      rw [List.eq_nil_iff_forall_not_mem]
      intro a ha
      have := h a.1
      rw [List.filter_nil] at this
      exact List.not_mem_nil (this ▸ List.mem_filter.2 ⟨ha, by simp⟩ : a ∈ ([] : List (Bytes × List Bytes)))
    exact e
  | a :: ss, ss', o, o', s, s', h, e => by
    -- the first section of this name in the other file
    have h1 := h a.1
    rw [List.filter_cons_of_pos (by simp)] at h1
    obtain ⟨p, q, rfl, hp, -⟩ := List.filter_eq_cons_iff.1 h1.symm
    have hp' : ∀ b ∈ p, b.1 ≠ a.1 := fun b hb e => by simpa [e] using hp b hb
    have e1 := run_front hc a p q _ _ _ _ hp' e
    change (pk a.1 (bodyLines a.2) >>= fun _ => runSections pk (p ++ q)) o s = _ at e1
    obtain ⟨_, o₁, s₁, e2, e3⟩ := Load.bind_inv e1
    have h2 : Rearranged ss (p ++ q) := by
      intro k
      have := h k
      by_cases hk : a.1 = k
      · rw [List.filter_cons_of_pos (by simp [hk]), List.filter_append, List.filter_cons_of_pos (by simp [hk])] at this
        rw [List.filter_append]
        have hn : p.filter (fun s => s.1 == k) = [] := by
          rw [List.filter_eq_nil_iff]
          intro b hb
          simpa [← hk] using hp' b hb
        rw [hn] at this ⊢
        exact (List.cons.inj this).2
      · rw [List.filter_cons_of_neg (by simp [hk]), List.filter_append, List.filter_cons_of_neg (by simp [hk])] at this
        rw [List.filter_append]
        exact this
    have e4 := run_rearranged hc ss (p ++ q) _ _ _ _ h2 e3
    change (pk a.1 (bodyLines a.2) >>= fun _ => runSections pk ss) o s = _
    change Load.bind _ _ o s = _
    unfold Load.bind
    rw [e2]
    exact e4

end

/-! ## Curves and surfaces -/

open Load

theorem still_intLine (ls : List Bytes) : Still (readIntLine ls) := by
  intro o s
  unfold readIntLine
  split <;> rfl

theorem still_knotLines (ls : List Bytes) : Still (readKnotLines ls) := by
  refine Still.forEach (fun _ l => Still.forEach (fun _ tok => ?_) _ _) _ _
  refine (still_pure _).ite ?_
  split
  · exact still_fail _
  · exact still_modify _

theorem Surface.still_gridLines (junk : Vec4 F64) (ls : List Bytes) : Still (Surface.readGridLines junk ls) := by
  unfold Surface.readGridLines
  split
  · exact still_fail _
  · refine Still.bind ?_ fun _ => still_get.bind fun g => (still_lift _).bind fun e => (still_fail _).ite
      ((still_modify _).bind fun _ => Still.bind (Still.forEach (fun i l => ?_) _ _) fun _ => still_pure _)
    · intro g s
      unfold Surface.readDims
      generalize extractInt g.UCount _ = y
      obtain ⟨u, okU, rest⟩ := y
      simp only
      split
      · generalize extractInt g.VCount rest = y
        obtain ⟨v, okV, rest'⟩ := y
        rfl
      · rfl
    · exact (still_pure _).ite ((still_lift _).bind fun _ => (still_modify _).bind fun _ => still_pure _)

/-- The `ControlPoints` branch of curves as a statement about that member. -/
def Curve.readPointLines (lines : List Bytes) : Load (List (Vec4 F64)) Unit :=
  Load.forEach (fun _ l => Load.forEach (fun _ tok =>
    let t := TrimString tok
    if t = [] then pure ()
    else do
      let v ← Load.lift (ReadVec4FromText t)
      Load.modify fun c => c ++ [v]) (splitBy (ch ',') l) ()) lines ()

theorem Curve.still_pointLines (ls : List Bytes) : Still (Curve.readPointLines ls) :=
  Still.forEach (fun _ _ => Still.forEach (fun _ _ => (still_pure _).ite ((still_lift _).bind fun _ => still_modify _)) _ _) _ _

theorem Curve.processKey_points (ls : List Bytes) : Curve.processKey (lit ['C', 'o', 'n', 't', 'r', 'o', 'l', 'P', 'o', 'i', 'n', 't', 's']) ls =
    Load.zoom (·.ControlPoints) (fun k c => { c with ControlPoints := k }) (Curve.readPointLines ls) := by
  unfold Curve.processKey Curve.readPointLines
  rw [if_neg (by decide), if_neg (by decide), if_pos rfl, ← forEach_zoom (g := fun c : Curve F64 => c.ControlPoints) (p := fun k c => { c with ControlPoints := k }) (fun _ _ => rfl) (fun _ _ _ => rfl) (fun _ => rfl)]
  congr 1
  funext _ l
  rw [← forEach_zoom (g := fun c : Curve F64 => c.ControlPoints) (p := fun k c => { c with ControlPoints := k }) (fun _ _ => rfl) (fun _ _ _ => rfl) (fun _ => rfl)]
  congr 1
  funext _ tok o s
  simp only
  split
  · rfl
  · generalize ReadVec4FromText _ = r
    cases r <;> rfl

theorem Curve.processKey_cases (k : Bytes) (ls : List Bytes) :
    (k = lit ['D', 'e', 'g', 'r', 'e', 'e'] ∧ Curve.processKey k ls = Load.zoom (·.Degree) (fun d c => { c with Degree := d }) (readIntLine ls)) ∨
    (k = lit ['K', 'n', 'o', 't', 's'] ∧ Curve.processKey k ls = Load.zoom (·.Knots) (fun k c => { c with Knots := k }) (readKnotLines ls)) ∨
    (k = lit ['C', 'o', 'n', 't', 'r', 'o', 'l', 'P', 'o', 'i', 'n', 't', 's'] ∧
      Curve.processKey k ls = Load.zoom (·.ControlPoints) (fun k c => { c with ControlPoints := k }) (Curve.readPointLines ls)) ∨
    Curve.processKey k ls = Load.fail .throws := by
  by_cases h1 : k = lit ['D', 'e', 'g', 'r', 'e', 'e']
  · exact .inl ⟨h1, by unfold Curve.processKey; rw [if_pos h1]⟩
  by_cases h2 : k = lit ['K', 'n', 'o', 't', 's']
  · exact .inr (.inl ⟨h2, by unfold Curve.processKey; rw [if_neg h1, if_pos h2]⟩)
  by_cases h3 : k = lit ['C', 'o', 'n', 't', 'r', 'o', 'l', 'P', 'o', 'i', 'n', 't', 's']
  · exact .inr (.inr (.inl ⟨h3, by rw [h3, Curve.processKey_points]⟩))
  · exact .inr (.inr (.inr (by unfold Curve.processKey; rw [if_neg h1, if_neg h2, if_neg h3])))

theorem fail_left {e : Err} {x : Load σ Unit} {o o' : σ} {s s' : IStream} {P : Prop} (h : ((Load.fail e : Load σ Unit) >>= fun _ => x) o s = (.ok (), o', s')) : P :=
  absurd (congrArg Prod.fst h) (by simp [Load.fail, Bind.bind, Load.bind])

theorem fail_right {e : Err} {x : Load σ Unit} {o o' : σ} {s s' : IStream} {P : Prop} (h : (x >>= fun _ => (Load.fail e : Load σ Unit)) o s = (.ok (), o', s')) : P := by
  obtain ⟨_, _, _, _, h2⟩ := Load.bind_inv h
  exact absurd (congrArg Prod.fst h2) (by simp [Load.fail])

theorem Curve.commute : Commute Curve.processKey := by
  intro k k' ls ls' o o' s s' hk h
  rcases Curve.processKey_cases k ls with ⟨e, h1⟩ | ⟨e, h1⟩ | ⟨e, h1⟩ | h1 <;>
    rcases Curve.processKey_cases k' ls' with ⟨e', h2⟩ | ⟨e', h2⟩ | ⟨e', h2⟩ | h2 <;> rw [h1, h2] at h <;>
    first
    | exact fail_left h
    | exact fail_right h
    | exact absurd (e.trans e'.symm) hk
    | (rw [h1, h2]
       refine zoom_comm ?_ ?_ ?_ ?_ ?_ h <;>
         first
         | exact fun _ _ => rfl
         | exact fun _ _ _ => rfl
         | exact still_intLine _
         | exact still_knotLines _
         | exact Curve.still_pointLines _)

theorem Surface.processKey_cases (junk : Vec4 F64) (k : Bytes) (ls : List Bytes) :
    (k = lit ['D', 'e', 'g', 'r', 'e', 'e', 'U'] ∧
      Surface.processKey junk k ls = Load.zoom (·.DegreeU) (fun d c => { c with DegreeU := d }) (readIntLine ls)) ∨
    (k = lit ['D', 'e', 'g', 'r', 'e', 'e', 'V'] ∧
      Surface.processKey junk k ls = Load.zoom (·.DegreeV) (fun d c => { c with DegreeV := d }) (readIntLine ls)) ∨
    (k = lit ['K', 'n', 'o', 't', 's', 'U'] ∧
      Surface.processKey junk k ls = Load.zoom (·.KnotsU) (fun k c => { c with KnotsU := k }) (readKnotLines ls)) ∨
    (k = lit ['K', 'n', 'o', 't', 's', 'V'] ∧
      Surface.processKey junk k ls = Load.zoom (·.KnotsV) (fun k c => { c with KnotsV := k }) (readKnotLines ls)) ∨
    (k = lit ['C', 'o', 'n', 't', 'r', 'o', 'l', 'P', 'o', 'i', 'n', 't', 's'] ∧
      Surface.processKey junk k ls = Load.zoom (·.ControlPoints) (fun k c => { c with ControlPoints := k }) (Surface.readGridLines junk ls)) ∨
    Surface.processKey junk k ls = Load.fail .throws := by
  unfold Surface.processKey
  split
  · rename_i h; exact .inl ⟨h, rfl⟩
  split
  · rename_i h; exact .inr (.inl ⟨h, rfl⟩)
  split
  · rename_i h; exact .inr (.inr (.inl ⟨h, rfl⟩))
  split
  · rename_i h; exact .inr (.inr (.inr (.inl ⟨h, rfl⟩)))
  split
  · rename_i h; exact .inr (.inr (.inr (.inr (.inl ⟨h, rfl⟩))))
  · exact .inr (.inr (.inr (.inr (.inr rfl))))

theorem Surface.commute (junk : Vec4 F64) : Commute (Surface.processKey junk) := by
  intro k k' ls ls' o o' s s' hk h
  rcases Surface.processKey_cases junk k ls with ⟨e, h1⟩ | ⟨e, h1⟩ | ⟨e, h1⟩ | ⟨e, h1⟩ | ⟨e, h1⟩ | h1 <;>
    rcases Surface.processKey_cases junk k' ls' with ⟨e', h2⟩ | ⟨e', h2⟩ | ⟨e', h2⟩ | ⟨e', h2⟩ | ⟨e', h2⟩ | h2 <;> rw [h1, h2] at h <;>
    first
    | exact fail_left h
    | exact fail_right h
    | exact absurd (e.trans e'.symm) hk
    | (rw [h1, h2]
       refine zoom_comm ?_ ?_ ?_ ?_ ?_ h <;>
         first
         | exact fun _ _ => rfl
         | exact fun _ _ _ => rfl
         | exact still_intLine _
         | exact still_knotLines _
         | exact Surface.still_gridLines _ _)

/-- A section leaves what no section of its name is about. -/
theorem run_keeps {pk : Bytes → List Bytes → Load σ Unit} {f : σ → γ} {k : Bytes} (h : ∀ k' ls, k' ≠ k → Keeps f (pk k' ls)) :
    ∀ (ss : List (Bytes × List Bytes)), (∀ s ∈ ss, s.1 ≠ k) → Keeps f (runSections pk ss)
  | [], _ => fun _ _ => rfl
  | a :: ss, hs => Keeps.bind (h a.1 _ (hs a (by simp))) fun _ => run_keeps h ss fun s hs' => hs s (by simp [hs'])

end Nurbs
