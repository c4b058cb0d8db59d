import Verif.Model.Prelude
import Mathlib.Tactic.Ring
import Mathlib.Tactic.Linarith
import Mathlib.Logic.Function.Basic
import Mathlib.Data.List.Basic

/-! # Lemmas about the C++ primitives: vectors and loops -/

namespace Nurbs

@[simp] theorem bind_ok {α β : Type} (a : α) (f : α → M β) : (Except.ok a >>= f) = f a := rfl
@[simp] theorem bind_error {α β : Type} (e : Err) (f : α → M β) :
    ((Except.error e : M α) >>= f) = Except.error e := rfl
@[simp] theorem pure_ok {α : Type} (a : α) : (pure a : M α) = Except.ok a := rfl
@[simp] theorem throw_error {α : Type} (e : Err) : (throw e : M α) = Except.error e := rfl
@[simp] theorem bind_assoc' {α β γ : Type} (m : M α) (f : α → M β) (g : β → M γ) :
    (m >>= f >>= g) = (m >>= fun a => f a >>= g) := by cases m <;> rfl

theorem bind_eq_ok {α β : Type} {m : M α} {f : α → M β} {b : β} :
    (m >>= f) = .ok b ↔ ∃ a, m = .ok a ∧ f a = .ok b := by
  cases m <;> simp

theorem massert_true {p : Prop} [Decidable p] (h : p) : massert p = .ok () := by simp [massert, h]
theorem massert_false {p : Prop} [Decidable p] (h : ¬ p) : massert p = .error .assert := by
  simp [massert, h]
theorem massert_eq_ok {p : Prop} [Decidable p] {u : Unit} : massert p = .ok u ↔ p := by
  unfold massert; split <;> simp_all

theorem mthrowUnless_true {p : Prop} [Decidable p] (h : p) : mthrowUnless p = .ok () := by
  simp [mthrowUnless, h]
theorem mthrowUnless_eq_ok {p : Prop} [Decidable p] {u : Unit} : mthrowUnless p = .ok u ↔ p := by
  unfold mthrowUnless; split <;> simp_all

theorem fdiv_ok {K : Type} [Div K] [Zero K] [DecidableEq K] {a b : K} (h : b ≠ 0) :
    fdiv a b = .ok (a / b) := by simp [fdiv, h]

theorem fdiv_eq_ok {K : Type} [Div K] [Zero K] [DecidableEq K] {a b c : K} :
    fdiv a b = .ok c ↔ b ≠ 0 ∧ c = a / b := by
  unfold fdiv; split <;> simp_all [eq_comm]

/-! ### Vectors -/

section
variable {α : Type}

theorem vget_nat (l : List α) (n : Nat) (h : n < l.length) : vget l (n : Int) = .ok l[n] := by
  simp [vget, h]

theorem vget_eq_ok {l : List α} {i : Int} {a : α} :
    vget l i = .ok a ↔ 0 ≤ i ∧ l[i.toNat]? = some a := by
  unfold vget
  split
  · rename_i h; simp [h.1, h.2]
  · rename_i h
    simp only [reduceCtorEq, false_iff, not_and]
    intro h0 h1
    exact h ⟨h0, (List.getElem?_eq_some_iff.mp h1).1⟩

theorem vget_of (l : List α) (i : Int) (n : Nat) (a : α) (hi : i = n) (h : l[n]? = some a) :
    vget l i = .ok a := by subst hi; rw [vget_eq_ok]; simp [h]

theorem vset_nat (l : List α) (n : Nat) (a : α) (h : n < l.length) :
    vset l (n : Int) a = .ok (l.set n a) := by simp [vset, h]

theorem vset_eq_ok {l l' : List α} {i : Int} {a : α} :
    vset l i a = .ok l' ↔ 0 ≤ i ∧ i.toNat < l.length ∧ l' = l.set i.toNat a := by
  unfold vset; split
  · rename_i h; simp [h.1, h.2, eq_comm]
  · rename_i h; simp only [reduceCtorEq, false_iff]; tauto

theorem vget_neg (l : List α) (i : Int) (h : i < 0) : vget l i = .error .ub := by
  unfold vget; rw [dif_neg]; omega

theorem vget_ge (l : List α) (i : Int) (h : (l.length : Int) ≤ i) : vget l i = .error .ub := by
  unfold vget; rw [dif_neg]; omega

theorem vset_ge (l : List α) (i : Int) (a : α) (h : (l.length : Int) ≤ i) : vset l i a = .error .ub := by
  unfold vset; rw [if_neg]; omega

theorem vnew_nat (n : Nat) (a : α) : vnew (n : Int) a = .ok (List.replicate n a) := by simp [vnew]

theorem vnew_of (i : Int) (n : Nat) (a : α) (h : i = n) : vnew i a = .ok (List.replicate n a) := by
  subst h; exact vnew_nat n a

theorem vinsert_of (l : List α) (i : Int) (n j : Nat) (a : α) (hi : i = j) (h : j ≤ l.length) :
    vinsert l i n a = .ok (l.take j ++ List.replicate n a ++ l.drop j) := by
  subst hi; simp [vinsert, h]

theorem vresize_of (l : List α) (i : Int) (n : Nat) (a : α) (hi : i = n) :
    vresize l i a = .ok (l.take n ++ List.replicate (n - l.length) a) := by
  subst hi; simp [vresize]

/-- The vector `f 0, …, f (n-1)`. -/
def tab (n : Nat) (f : Nat → α) : List α := (List.range n).map f

@[simp] theorem tab_length (n : Nat) (f : Nat → α) : (tab n f).length = n := by simp [tab]

@[simp] theorem tab_getElem (n : Nat) (f : Nat → α) (i : Nat) (h : i < (tab n f).length) :
    (tab n f)[i] = f i := by simp [tab]

theorem tab_getElem? (n : Nat) (f : Nat → α) (i : Nat) (h : i < n) : (tab n f)[i]? = some (f i) := by
  simp [tab, h]

theorem tab_congr {n : Nat} {f g : Nat → α} (h : ∀ i < n, f i = g i) : tab n f = tab n g := by
  apply List.ext_getElem <;> simp_all

theorem tab_ext {n : Nat} {f g : Nat → α} (h : tab n f = tab n g) : ∀ i < n, f i = g i := by
  intro i hi
  have := congrArg (fun l => l[i]?) h
  simpa [tab_getElem? _ _ _ hi] using this

theorem eq_tab (l : List α) (f : Nat → α) (h : ∀ i (hi : i < l.length), l[i] = f i) :
    l = tab l.length f := by
  apply List.ext_getElem <;> simp_all

theorem replicate_eq_tab (n : Nat) (a : α) : List.replicate n a = tab n (fun _ => a) := by
  apply List.ext_getElem <;> simp

theorem vget_tab (n : Nat) (f : Nat → α) (i : Int) (j : Nat) (hi : i = j) (h : j < n) :
    vget (tab n f) i = .ok (f j) := by
  subst hi; rw [vget_nat _ _ (by simpa using h)]; simp

theorem vset_tab (n : Nat) (f : Nat → α) (i : Int) (j : Nat) (a : α) (hi : i = j) (h : j < n) :
    vset (tab n f) i a = .ok (tab n (Function.update f j a)) := by
  subst hi
  rw [vset_nat _ _ _ (by simpa using h)]
  congr 1
  apply List.ext_getElem
  · simp
  · intro k h1 h2
    simp only [List.getElem_set, tab_getElem]
    by_cases hk : j = k
    · subst hk; simp
    · simp [hk, Function.update_of_ne (Ne.symm hk)]

theorem vset_tab' (n : Nat) (f g : Nat → α) (i : Int) (j : Nat) (a : α) (hi : i = j) (h : j < n)
    (hg : ∀ k < n, g k = if k = j then a else f k) :
    vset (tab n f) i a = .ok (tab n g) := by
  rw [vset_tab n f i j a hi h]
  congr 1
  apply tab_congr
  intro k hk
  rw [hg k hk]
  by_cases hkj : k = j
  · subst hkj; simp
  · simp [hkj]

theorem mget_tab (n m : Nat) (f : Nat → Nat → α) (i j : Int) (a b : Nat) (hi : i = a) (hj : j = b)
    (ha : a < n) (hb : b < m) : mget (tab n fun i => tab m (f i)) i j = .ok (f a b) := by
  unfold mget
  rw [vget_tab _ _ _ a hi ha]
  exact vget_tab _ _ _ b hj hb

theorem mset_tab (n m : Nat) (f g : Nat → Nat → α) (i j : Int) (a b : Nat) (v : α) (hi : i = a)
    (hj : j = b) (ha : a < n) (hb : b < m)
    (hg : ∀ k < n, ∀ l < m, g k l = if k = a ∧ l = b then v else f k l) :
    mset (tab n fun i => tab m (f i)) i j v = .ok (tab n fun i => tab m (g i)) := by
  unfold mset
  rw [vget_tab _ _ _ a hi ha]
  simp only [bind_ok]
  rw [vset_tab' m (f a) (g a) j b v hj hb (by intro k hk; rw [hg a ha k hk]; simp)]
  simp only [bind_ok]
  apply vset_tab' _ _ _ _ a _ hi ha
  intro k hk
  by_cases hka : k = a
  · subst hka; simp
  · simp only [hka, if_false]
    apply tab_congr; intro l hl; rw [hg k hk l hl]; simp [hka]

end

/-! ### Loops -/

section
variable {σ : Type}

/-- Deterministic loop rule. -/
theorem forUp_eq (f : Int → σ → M σ) (g : Nat → σ) (n : Nat) :
    ∀ lo : Int, (∀ i < n, f (lo + i) (g i) = .ok (g (i + 1))) → forUp lo n f (g 0) = .ok (g n) := by
  induction n generalizing g with
  | zero => intro lo _; rfl
  | succ n ih =>
    intro lo h
    have h0 := h 0 (Nat.succ_pos n)
    simp only [Nat.cast_zero, add_zero] at h0
    simp only [forUp, h0, bind_ok]
    have := ih (fun i => g (i + 1)) (lo + 1) (by
      intro i hi
      have := h (i + 1) (by omega)
      simpa [add_assoc, add_comm, add_left_comm] using this)
    simpa using this

/-- Total-correctness invariant rule. -/
theorem forUp_inv (f : Int → σ → M σ) (P : Nat → σ → Prop) (n : Nat) :
    ∀ (lo : Int) (s : σ), P 0 s →
      (∀ i < n, ∀ s, P i s → ∃ s', f (lo + i) s = .ok s' ∧ P (i + 1) s') →
      ∃ s', forUp lo n f s = .ok s' ∧ P n s' := by
  induction n generalizing P with
  | zero => intro lo s h _; exact ⟨s, rfl, h⟩
  | succ n ih =>
    intro lo s h0 h
    obtain ⟨s1, e1, p1⟩ := h 0 (Nat.succ_pos n) s h0
    simp only [Nat.cast_zero, add_zero] at e1
    obtain ⟨s2, e2, p2⟩ := ih (fun i => P (i + 1)) (lo + 1) s1 (by simpa using p1) (by
      intro i hi s hs
      obtain ⟨s', e, p⟩ := h (i + 1) (by omega) s hs
      refine ⟨s', ?_, p⟩
      simpa [add_assoc, add_comm, add_left_comm] using e)
    exact ⟨s2, by simp [forUp, e1, e2], p2⟩

/-- Partial-correctness invariant rule. -/
theorem forUp_part (f : Int → σ → M σ) (P : Nat → σ → Prop) (n : Nat) :
    ∀ (lo : Int) (s s' : σ), P 0 s → forUp lo n f s = .ok s' →
      (∀ i < n, ∀ s s', P i s → f (lo + i) s = .ok s' → P (i + 1) s') → P n s' := by
  induction n generalizing P with
  | zero => intro lo s s' h e _; simp [forUp] at e; exact e ▸ h
  | succ n ih =>
    intro lo s s' h0 e h
    simp only [forUp] at e
    obtain ⟨s1, e1, e2⟩ := bind_eq_ok.mp e
    exact ih (fun i => P (i + 1)) (lo + 1) s1 s' (h 0 (Nat.succ_pos n) s s1 h0 (by simpa using e1)) e2 (by
      intro i hi t t' ht he
      exact h (i + 1) (by omega) t t' ht
        (by simpa [add_assoc, add_comm, add_left_comm] using he))

theorem forLe_eq_forUp (lo hi : Int) (n : Nat) (h : (hi + 1 - lo).toNat = n) (f : Int → σ → M σ) (s : σ) :
    forLe lo hi f s = forUp lo n f s := by simp [forLe, h]

theorem forLt_eq_forUp (lo hi : Int) (n : Nat) (h : (hi - lo).toNat = n) (f : Int → σ → M σ) (s : σ) :
    forLt lo hi f s = forUp lo n f s := by simp [forLt, h]

/-- Deterministic rule for counting down. -/
theorem forDn_eq (f : Int → σ → M σ) (g : Nat → σ) (n : Nat) :
    ∀ hi : Int, (∀ i < n, f (hi - i) (g i) = .ok (g (i + 1))) → forDn hi n f (g 0) = .ok (g n) := by
  induction n generalizing g with
  | zero => intro lo _; rfl
  | succ n ih =>
    intro hi h
    have h0 := h 0 (Nat.succ_pos n)
    simp only [Nat.cast_zero, sub_zero] at h0
    simp only [forDn, h0, bind_ok]
    have := ih (fun i => g (i + 1)) (hi - 1) (by
      intro i hi'
      have := h (i + 1) (by omega)
      rw [show hi - 1 - (i : Int) = hi - ((i + 1 : Nat) : Int) by push_cast; ring]
      exact this)
    simpa using this

theorem forDn_inv (f : Int → σ → M σ) (P : Nat → σ → Prop) (n : Nat) :
    ∀ (hi : Int) (s : σ), P 0 s →
      (∀ i < n, ∀ s, P i s → ∃ s', f (hi - i) s = .ok s' ∧ P (i + 1) s') →
      ∃ s', forDn hi n f s = .ok s' ∧ P n s' := by
  induction n generalizing P with
  | zero => intro lo s h _; exact ⟨s, rfl, h⟩
  | succ n ih =>
    intro hi s h0 h
    obtain ⟨s1, e1, p1⟩ := h 0 (Nat.succ_pos n) s h0
    simp only [Nat.cast_zero, sub_zero] at e1
    obtain ⟨s2, e2, p2⟩ := ih (fun i => P (i + 1)) (hi - 1) s1 (by simpa using p1) (by
      intro i hi' s hs
      obtain ⟨s', e, p⟩ := h (i + 1) (by omega) s hs
      refine ⟨s', ?_, p⟩
      rw [show hi - 1 - (i : Int) = hi - ((i + 1 : Nat) : Int) by push_cast; ring]
      exact e)
    exact ⟨s2, by simp [forDn, e1, e2], p2⟩

/-- Additive accumulation loop. -/
theorem forUp_sum {A : Type} [AddCommMonoid A] (f : Int → A → M A) (a : Nat → A) (n : Nat) (lo : Int) (s : A)
    (h : ∀ i < n, ∀ t, f (lo + i) t = .ok (t + a i)) :
    forUp lo n f s = .ok (s + ((List.range n).map a).sum) := by
  have := forUp_eq f (fun i => s + ((List.range i).map a).sum) n lo (by
    intro i hi
    rw [h i hi]
    simp [List.range_succ, add_assoc])
  simpa using this

theorem mapMList_ok {α β : Type} (f : α → M β) (g : α → β) (l : List α) (h : ∀ a ∈ l, f a = .ok (g a)) :
    mapMList f l = .ok (l.map g) := by
  induction l with
  | nil => rfl
  | cons a l ih =>
    simp only [mapMList, h a (by simp), bind_ok, ih (fun b hb => h b (by simp [hb])), List.map_cons]

theorem foldMList_inv {α : Type} (f : α → σ → M σ) (P : List α → σ → Prop) (l : List α) (s : σ)
    (h0 : P [] s)
    (h : ∀ pre a s, (∃ post, l = pre ++ a :: post) → P pre s → ∃ s', f a s = .ok s' ∧ P (pre ++ [a]) s') :
    ∃ s', foldMList f l s = .ok s' ∧ P l s' := by
  suffices H : ∀ (l2 pre : List α) (s : σ), pre ++ l2 = l → P pre s →
      ∃ s', foldMList f l2 s = .ok s' ∧ P l s' by simpa using H l [] s rfl h0
  intro l2
  induction l2 with
  | nil => intro pre s e hp; simp at e; subst e; exact ⟨s, rfl, hp⟩
  | cons a l2 ih =>
    intro pre s e hp
    obtain ⟨s1, e1, p1⟩ := h pre a s ⟨l2, e.symm⟩ hp
    obtain ⟨s2, e2, p2⟩ := ih (pre ++ [a]) s1 (by simpa using e) p1
    exact ⟨s2, by simp [foldMList, e1, e2], p2⟩

end

end Nurbs
