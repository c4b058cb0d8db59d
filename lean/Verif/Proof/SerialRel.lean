import Verif.Proof.SerialFile
import Verif.Proof.SerialLine

/-! # Comparing two loads of the same bytes into different objects; the header as a specification -/

set_option linter.unusedSectionVars false

namespace Nurbs
open Serial Utils

namespace Load
variable {σ τ α β : Type}

/-- If `x` succeeds on an object, then `y` succeeds on every related object with the same result, and the
objects afterwards are related by `R'`. -/
def Rel (x y : Load σ α) (R : σ → σ → Prop) (R' : σ → σ → Prop) : Prop :=
  ∀ o₁ o₂ s a o₁' s', R o₁ o₂ → x o₁ s = (.ok a, o₁', s') → ∃ o₂', y o₂ s = (.ok a, o₂', s') ∧ R' o₁' o₂'

theorem Rel.bind {x y : Load σ α} {f g : α → Load σ β} {R R' R'' : σ → σ → Prop} (h₁ : Rel x y R R')
    (h₂ : ∀ a, Rel (f a) (g a) R' R'') : Rel (x >>= f) (y >>= g) R R'' := by
  intro o₁ o₂ s b o₁'' s'' hR h
  obtain ⟨a, o', s', hx, hf⟩ := bind_inv h
  obtain ⟨o₂', hy, hR'⟩ := h₁ _ _ _ _ _ _ hR hx
  obtain ⟨o₂'', hg, hR''⟩ := h₂ a _ _ _ _ _ _ hR' hf
  exact ⟨o₂'', by rw [bind_of_ok hy, hg], hR''⟩

theorem rel_pure (a : α) (R : σ → σ → Prop) : Rel (pure a : Load σ α) (pure a) R R := by
  intro o₁ o₂ s b o₁' s' hR h
  simp only [Pure.pure, Load.pure, Prod.mk.injEq, Except.ok.injEq] at h
  obtain ⟨rfl, rfl, rfl⟩ := h
  exact ⟨o₂, rfl, hR⟩

theorem rel_fail (e : Err) (R R' : σ → σ → Prop) (y : Load σ α) : Rel (fail e : Load σ α) y R R' := by
  intro o₁ o₂ s b o₁' s' hR h
  simp [fail] at h

theorem rel_modify' (f g : σ → σ) {R R' : σ → σ → Prop} (h : ∀ o₁ o₂, R o₁ o₂ → R' (f o₁) (g o₂)) :
    Rel (modify f) (modify g) R R' := by
  intro o₁ o₂ s b o₁' s' hR h'
  simp only [modify, Prod.mk.injEq] at h'
  obtain ⟨-, rfl, rfl⟩ := h'
  exact ⟨_, rfl, h _ _ hR⟩

theorem rel_modify (f : σ → σ) {R R' : σ → σ → Prop} (h : ∀ o₁ o₂, R o₁ o₂ → R' (f o₁) (f o₂)) :
    Rel (modify f) (modify f) R R' := rel_modify' f f h

theorem rel_lift (x : M α) (R : σ → σ → Prop) : Rel (lift x : Load σ α) (lift x) R R := by
  intro o₁ o₂ s b o₁' s' hR h
  simp only [lift, Prod.mk.injEq] at h
  obtain ⟨rfl, rfl, rfl⟩ := h
  exact ⟨o₂, rfl, hR⟩

theorem Rel.ite {p : Prop} [Decidable p] {x y x' y' : Load σ α} {R R' : σ → σ → Prop} (h : p → Rel x y R R')
    (h' : ¬ p → Rel x' y' R R') : Rel (if p then x else x') (if p then y else y') R R' := by
  by_cases hp : p
  · rw [if_pos hp, if_pos hp]; exact h hp
  · rw [if_neg hp, if_neg hp]; exact h' hp

theorem Rel.zoom' {x y : Load τ α} {R R' : τ → τ → Prop} (h : Rel x y R R') (g g' : σ → τ) (p : τ → σ → σ)
    {S S' : σ → σ → Prop} (hS : ∀ o₁ o₂, S o₁ o₂ → R (g o₁) (g' o₂))
    (hS' : ∀ o₁ o₂ t₁ t₂, S o₁ o₂ → R' t₁ t₂ → S' (p t₁ o₁) (p t₂ o₂)) : Rel (zoom g p x) (zoom g' p y) S S' := by
  intro o₁ o₂ s b o₁' s' hR h'
  unfold Load.zoom at h'
  obtain ⟨r, t, u, hx⟩ : ∃ r t u, x (g o₁) s = (r, t, u) := ⟨_, _, _, rfl⟩
  rw [hx] at h'
  simp only [Prod.mk.injEq] at h'
  obtain ⟨rfl, rfl, rfl⟩ := h'
  obtain ⟨t₂, hy, hR'⟩ := h _ _ _ _ _ _ (hS _ _ hR) hx
  refine ⟨p t₂ o₂, ?_, hS' _ _ _ _ hR hR'⟩
  unfold Load.zoom
  rw [hy]

theorem Rel.zoom {x y : Load τ α} {R R' : τ → τ → Prop} (h : Rel x y R R') (g : σ → τ) (p : τ → σ → σ)
    {S S' : σ → σ → Prop} (hS : ∀ o₁ o₂, S o₁ o₂ → R (g o₁) (g o₂))
    (hS' : ∀ o₁ o₂ t₁ t₂, S o₁ o₂ → R' t₁ t₂ → S' (p t₁ o₁) (p t₂ o₂)) : Rel (zoom g p x) (zoom g p y) S S' :=
  Rel.zoom' h g g p hS hS'

theorem Rel.mono {x y : Load σ α} {R S R' S' : σ → σ → Prop} (h : Rel x y R R') (hS : ∀ o₁ o₂, S o₁ o₂ → R o₁ o₂)
    (hS' : ∀ o₁ o₂, R' o₁ o₂ → S' o₁ o₂) : Rel x y S S' := by
  intro o₁ o₂ s b o₁' s' hR h'
  obtain ⟨o₂', hy, hr⟩ := h _ _ _ _ _ _ (hS _ _ hR) h'
  exact ⟨o₂', hy, hS' _ _ hr⟩

theorem rel_forEach {f g : β → α → Load σ β} {R : σ → σ → Prop} (l : List α) (h : ∀ b, ∀ a ∈ l, Rel (f b a) (g b a) R R)
    (b : β) : Rel (forEach f l b) (forEach g l b) R R := by
  induction l generalizing b with
  | nil => exact rel_pure b R
  | cons a l ih => exact Rel.bind (h b a (by simp)) fun b' => ih (fun b a ha => h b a (by simp [ha])) b'

/-- A successful read does not depend on what was there before. -/
theorem rel_read {n : ℕ} (store : Bytes → σ → σ) {R R' : σ → σ → Prop}
    (h : ∀ b o₁ o₂, b.length = n → R o₁ o₂ → R' (store b o₁) (store b o₂)) : Rel (read n store) (read n store) R R' := by
  intro o₁ o₂ s a o₁' s' hR h'
  unfold Load.read at h' ⊢
  obtain ⟨b, ok, t, hx⟩ : ∃ b ok t, s.read n = (b, ok, t) := ⟨_, _, _, rfl⟩
  rw [hx] at h' ⊢
  cases ok with
  | false => simp at h'
  | true =>
    have hb : b.length = n := by
      unfold IStream.read at hx
      split_ifs at hx with h1 h2
      · simp at hx
      · simp only [Prod.mk.injEq] at hx
        rw [← hx.1, List.length_take, Nat.min_eq_left h2]
      · simp at hx
    simp only [if_true, Prod.mk.injEq] at h' ⊢
    obtain ⟨e, rfl, rfl⟩ := h'
    exact ⟨_, ⟨e, rfl, rfl⟩, h b _ _ hb hR⟩

theorem rel_intLocal {R : σ → σ → Prop} : Rel (readIntLocal : Load σ ℤ) readIntLocal R R := by
  intro o₁ o₂ s a o₁' s' hR h'
  unfold readIntLocal at h' ⊢
  obtain ⟨b, ok, t, hx⟩ : ∃ b ok t, s.read 4 = (b, ok, t) := ⟨_, _, _, rfl⟩
  rw [hx] at h' ⊢
  simp only [Prod.mk.injEq] at h' ⊢
  obtain ⟨e, rfl, rfl⟩ := h'
  exact ⟨_, ⟨e, rfl, rfl⟩, hR⟩

theorem rel_intMember (g : σ → ℤ) (p : ℤ → σ → σ) {S S' : σ → σ → Prop}
    (hS' : ∀ o₁ o₂ t, S o₁ o₂ → S' (p t o₁) (p t o₂)) : Rel (readIntMember g p) (readIntMember g p) S S' := by
  refine Rel.zoom (R := fun _ _ => True) (R' := fun a b => a = b) (rel_read _ ?_) g p (fun _ _ _ => trivial) ?_
  · intro b o₁ o₂ hb _
    rw [overwrite_full (by rw [intBytes_length, hb]), overwrite_full (by rw [intBytes_length, hb])]
  · rintro o₁ o₂ t₁ _ h rfl
    exact hS' _ _ _ h

theorem rel_knots : Rel ReadKnotVectorFromStream ReadKnotVectorFromStream (fun _ _ => True) (fun a b => a = b) := by
  unfold ReadKnotVectorFromStream
  refine Rel.bind rel_intLocal fun n => Rel.ite (fun _ => rel_fail _ _ _ _) fun _ => ?_
  refine Rel.bind (R' := fun a b => a.Values.length = n.toNat ∧ b.Values.length = n.toNat)
    (rel_modify _ fun _ _ _ => ⟨resize_length _ _ _, resize_length _ _ _⟩) fun _ => rel_read _ ?_
  intro b o₁ o₂ hb h
  rw [overwrite_full (by rw [arrBytes_length, hb, h.1]), overwrite_full (by rw [arrBytes_length, hb, h.2])]

theorem rel_vec4 : Rel ReadVec4FromStream ReadVec4FromStream (fun _ _ => True) (fun a b => a = b) := by
  refine rel_read _ ?_
  intro b o₁ o₂ hb _
  rw [overwrite_full (by rw [vec4Bytes_length, hb]), overwrite_full (by rw [vec4Bytes_length, hb])]

/-- Overwriting all points one by one. -/
theorem rel_points (junk junk' : Vec4 F64) (g : σ → List (Vec4 F64)) (p : List (Vec4 F64) → σ → σ)
    (hgp : ∀ l o, g (p l o) = l) (S : σ → σ → Prop) (hS : ∀ o₁ o₂ l₁ l₂, S o₁ o₂ → S (p l₁ o₁) (p l₂ o₂)) (n : ℕ) :
    ∀ k, Rel (forEach (fun (_ : Unit) i => zoom (fun c => (g c).getD i junk) (fun v c => p ((g c).set i v) c) ReadVec4FromStream)
        (List.range' k n) ())
      (forEach (fun (_ : Unit) i => zoom (fun c => (g c).getD i junk') (fun v c => p ((g c).set i v) c) ReadVec4FromStream)
        (List.range' k n) ())
      (fun o₁ o₂ => S o₁ o₂ ∧ (g o₁).length = k + n ∧ (g o₂).length = k + n ∧ (g o₁).take k = (g o₂).take k)
      (fun o₁ o₂ => S o₁ o₂ ∧ g o₁ = g o₂) := by
  induction n with
  | zero =>
    intro k
    refine Rel.mono (rel_pure () _) (fun _ _ h => h) ?_
    rintro o₁ o₂ ⟨h1, h2, h3, h4⟩
    refine ⟨h1, ?_⟩
    rwa [List.take_of_length_le (by omega), List.take_of_length_le (by omega)] at h4
  | succ n ih =>
    intro k
    rw [List.range'_succ]
    refine Rel.bind ?_ fun _ => ih (k + 1)
    refine Rel.zoom' rel_vec4 _ _ _ (fun _ _ _ => trivial) ?_
    rintro o₁ o₂ t _ ⟨h1, h2, h3, h4⟩ rfl
    refine ⟨hS _ _ _ _ h1, ?_, ?_, ?_⟩
    · rw [hgp, List.length_set]; omega
    · rw [hgp, List.length_set]; omega
    · rw [hgp, hgp]
      rw [List.take_add_one, List.take_add_one]
      simp only [List.take_set_of_le le_rfl, List.getElem?_set_self (show k < (g o₁).length by omega),
        List.getElem?_set_self (show k < (g o₂).length by omega), h4]

end Load

open Load

theorem Curve.rel_binary (junk junk' : Vec4 F64) :
    Rel (Curve.loadBinary junk) (Curve.loadBinary junk') (fun _ _ => True) (fun a b => a = b) := by
  unfold Curve.loadBinary
  refine Rel.bind (R' := fun a b => a.Degree = b.Degree) (rel_intMember _ _ fun _ _ _ _ => rfl) fun _ => ?_
  refine Rel.bind (R' := fun a b => a.Degree = b.Degree ∧ a.Knots = b.Knots)
    (Rel.zoom rel_knots _ _ (fun _ _ _ => trivial) (fun _ _ _ _ h h' => ⟨h, h'⟩)) fun _ => ?_
  refine Rel.bind rel_intLocal fun n => Rel.ite (fun _ => rel_fail _ _ _ _) fun _ => ?_
  refine Rel.bind (R' := fun a b => (a.Degree = b.Degree ∧ a.Knots = b.Knots) ∧ a.ControlPoints.length = 0 + n.toNat ∧
    b.ControlPoints.length = 0 + n.toNat ∧ a.ControlPoints.take 0 = b.ControlPoints.take 0)
    (rel_modify' _ _ fun _ _ h => ⟨h, by simp [resize_length], by simp [resize_length], rfl⟩) fun _ => ?_
  rw [List.range_eq_range']
  refine Rel.mono (rel_points junk junk' (σ := Curve F64) (fun c => c.ControlPoints) (fun l c => { c with ControlPoints := l })
    (fun _ _ => rfl) (fun a b => a.Degree = b.Degree ∧ a.Knots = b.Knots) (fun _ _ _ _ h => h) n.toNat 0)
    (fun _ _ h => h) ?_
  rintro o₁ o₂ ⟨⟨h1, h2⟩, h3⟩
  exact Curve.ext h1 h2 h3

theorem Surface.rel_grid (junk junk' : Vec4 F64) :
    Rel (Surface.loadGrid junk) (Surface.loadGrid junk') (fun _ _ => True) (fun a b => a = b) := by
  unfold Surface.loadGrid
  refine Rel.bind (R' := fun a b => a.UCount = b.UCount) (rel_intMember _ _ fun _ _ _ _ => rfl) fun _ => ?_
  refine Rel.bind (R' := fun a b => a.UCount = b.UCount ∧ a.VCount = b.VCount)
    (rel_intMember _ _ fun _ _ _ h => ⟨h, rfl⟩) fun _ => ?_
  intro o₁ o₂ s a o₁' s' hR h
  obtain ⟨hu, hv⟩ := hR
  obtain ⟨u₁, v₁, w₁⟩ := o₁
  obtain ⟨u₂, v₂, w₂⟩ := o₂
  simp only at hu hv
  subst hu hv
  have key : Rel (if u₁ ≤ 0 ∨ v₁ ≤ 0 then Load.fail .throws
    else do
      let cp_count ← Load.lift (gridCount u₁ v₁)
      Load.modify fun g : Grid (Vec4 F64) => { g with Values := resize g.Values cp_count.toNat junk }
      Load.forEach (fun _ i => Load.zoom (fun g => g.Values.getD i junk)
        (fun v g => { g with Values := g.Values.set i v }) ReadVec4FromStream) (List.range cp_count.toNat) ())
    (if u₁ ≤ 0 ∨ v₁ ≤ 0 then Load.fail .throws
    else do
      let cp_count ← Load.lift (gridCount u₁ v₁)
      Load.modify fun g : Grid (Vec4 F64) => { g with Values := resize g.Values cp_count.toNat junk' }
      Load.forEach (fun _ i => Load.zoom (fun g => g.Values.getD i junk')
        (fun v g => { g with Values := g.Values.set i v }) ReadVec4FromStream) (List.range cp_count.toNat) ())
    (fun a b => a.UCount = b.UCount ∧ a.VCount = b.VCount) (fun a b => a = b) := by
    refine Rel.ite (fun _ => rel_fail _ _ _ _) fun _ => ?_
    refine Rel.bind (rel_lift _ _) fun n => ?_
    refine Rel.bind (R' := fun a b => (a.UCount = b.UCount ∧ a.VCount = b.VCount) ∧ a.Values.length = 0 + n.toNat ∧
      b.Values.length = 0 + n.toNat ∧ a.Values.take 0 = b.Values.take 0)
      (rel_modify' _ _ fun _ _ h => ⟨h, by simp [resize_length], by simp [resize_length], rfl⟩) fun _ => ?_
    rw [List.range_eq_range']
    refine Rel.mono (rel_points junk junk' (σ := Grid (Vec4 F64)) (fun c => c.Values) (fun l c => { c with Values := l })
      (fun _ _ => rfl) (fun a b => a.UCount = b.UCount ∧ a.VCount = b.VCount) (fun _ _ _ _ h => h) n.toNat 0)
      (fun _ _ h => h) ?_
    rintro o₁ o₂ ⟨⟨h1, h2⟩, h3⟩
    exact Grid.ext h1 h2 h3
  have h' := key ⟨u₁, v₁, w₁⟩ ⟨u₁, v₁, w₂⟩ s a o₁' s' ⟨rfl, rfl⟩ h
  exact h'

theorem Surface.rel_binary (junk junk' : Vec4 F64) :
    Rel (Surface.loadBinary junk) (Surface.loadBinary junk') (fun _ _ => True) (fun a b => a = b) := by
  unfold Surface.loadBinary
  refine Rel.bind (R' := fun a b => a.DegreeU = b.DegreeU) (rel_intMember _ _ fun _ _ _ _ => rfl) fun _ => ?_
  refine Rel.bind (R' := fun a b => a.DegreeU = b.DegreeU ∧ a.DegreeV = b.DegreeV)
    (rel_intMember _ _ fun _ _ _ h => ⟨h, rfl⟩) fun _ => ?_
  refine Rel.bind (R' := fun a b => (a.DegreeU = b.DegreeU ∧ a.DegreeV = b.DegreeV) ∧ a.KnotsU = b.KnotsU)
    (Rel.zoom rel_knots _ _ (fun _ _ _ => trivial) (fun _ _ _ _ h h' => ⟨h, h'⟩)) fun _ => ?_
  refine Rel.bind (R' := fun a b => ((a.DegreeU = b.DegreeU ∧ a.DegreeV = b.DegreeV) ∧ a.KnotsU = b.KnotsU) ∧
    a.KnotsV = b.KnotsV)
    (Rel.zoom rel_knots _ _ (fun _ _ _ => trivial) (fun _ _ _ _ h h' => ⟨h, h'⟩)) fun _ => ?_
  refine Rel.zoom (Surface.rel_grid junk junk') _ _ (fun _ _ _ => trivial) ?_
  rintro ⟨a1, a2, a3, a4, a5⟩ ⟨b1, b2, b3, b4, b5⟩ t _ ⟨⟨⟨h1, h2⟩, h3⟩, h4⟩ rfl
  simp only at h1 h2 h3 h4
  subst h1 h2 h3 h4
  rfl

/-! ## Text files are appended to the object -/

/-- `b` is `a` with the data of `o` in front. -/
def Curve.Shifted (o a b : Curve F64) : Prop :=
  b.Knots.Values = o.Knots.Values ++ a.Knots.Values ∧ b.ControlPoints = o.ControlPoints ++ a.ControlPoints

theorem Curve.shift_processKey (o : Curve F64) (key : Bytes) (lines : List Bytes) :
    Rel (Curve.processKey key lines) (Curve.processKey key lines) (Curve.Shifted o) (Curve.Shifted o) := by
  unfold Curve.processKey
  refine Rel.ite (fun _ => ?_) fun _ => Rel.ite (fun _ => ?_) fun _ => Rel.ite (fun _ => ?_) fun _ => rel_fail _ _ _ _
  · refine Rel.zoom (R := fun _ _ => True) (R' := fun _ _ => True) ?_ _ _ (fun _ _ _ => trivial) (fun _ _ _ _ h _ => h)
    intro o₁ o₂ s a o₁' s' _ h
    unfold readIntLine at h ⊢
    match lines, h with
    | [], h => simp at h
    | _ :: _ :: _, h => simp at h
    | [l], h =>
      simp only [Prod.mk.injEq] at h ⊢
      obtain ⟨h1, h2, h3⟩ := h
      have hok : (extractInt o₁ l).2.1 = (extractInt o₂ l).2.1 := by
        unfold extractInt
        simp only
        split_ifs <;> rfl
      rw [hok] at h1
      exact ⟨_, ⟨h1, rfl, h3⟩, trivial⟩
  · refine Rel.zoom (R := fun a b => b.Values = o.Knots.Values ++ a.Values)
      (R' := fun a b => b.Values = o.Knots.Values ++ a.Values) ?_ _ _ (fun _ _ h => h.1) (fun _ _ _ _ h h' => ⟨h', h.2⟩)
    unfold readKnotLines
    refine rel_forEach _ (fun _ l _ => rel_forEach _ (fun _ tok _ => ?_) _) _
    dsimp only
    refine Rel.ite (fun _ => rel_pure _ _) fun _ => ?_
    cases extractDouble (TrimString tok) with
    | none => exact rel_fail _ _ _ _
    | some x =>
      refine rel_modify _ fun a b h => ?_
      simp only [h, List.append_assoc]
  · refine rel_forEach _ (fun _ l _ => rel_forEach _ (fun _ tok _ => ?_) _) _
    dsimp only
    refine Rel.ite (fun _ => rel_pure _ _) fun _ => ?_
    refine Rel.bind (rel_lift _ _) fun v => rel_modify _ fun a b h => ⟨h.1, ?_⟩
    simp only [h.2, List.append_assoc]

theorem rel_textLoop {σ : Type} {pk pk' : Bytes → List Bytes → Load σ Unit} {R : σ → σ → Prop}
    (h : ∀ k l, Rel (pk k l) (pk' k l) R R) : Rel (textLoop pk) (textLoop pk') R R := by
  intro o₁ o₂ s a o₁' s' hR h'
  have key : Rel (do
      let st ← Load.forEach (textStep pk) (if s.eof then [] else splitBy (ch '\n') s.rest) {}
      if st.key ≠ [] then pk st.key st.lines else pure () : Load σ Unit)
      (do
      let st ← Load.forEach (textStep pk') (if s.eof then [] else splitBy (ch '\n') s.rest) {}
      if st.key ≠ [] then pk' st.key st.lines else pure () : Load σ Unit) R R := by
    refine Rel.bind (rel_forEach _ (fun st raw _ => ?_) _) fun st => Rel.ite (fun _ => h _ _) fun _ => rel_pure _ _
    unfold textStep
    dsimp only
    refine Rel.ite (fun _ => rel_pure _ _) fun _ => Rel.ite (fun _ => Rel.ite (fun _ => ?_) fun _ => rel_pure _ _)
      fun _ => Rel.ite (fun _ => rel_fail _ _ _ _) fun _ => rel_pure _ _
    exact Rel.bind (h _ _) fun _ => rel_pure _ _
  exact key _ _ _ _ _ _ hR h'

/-! ## The header -/
end Nurbs
