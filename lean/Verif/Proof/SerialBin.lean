import Verif.Model.Serialization
import Verif.Proof.Loops
import Mathlib.Data.List.Basic
import Mathlib.Tactic.Ring
import Mathlib.Tactic.Linarith

/-! # Binary files: memory codecs and the reading combinators -/

set_option linter.unusedSectionVars false

namespace Nurbs
open Serial Utils

/-! ## Codecs -/
namespace Serial

theorem leBytes_length (k n : ℕ) : (leBytes k n).length = k := by
  induction k generalizing n with
  | zero => rfl
  | succ k ih => simp [leBytes, ih]

theorem leNat_leBytes (k n : ℕ) : leNat (leBytes k n) = n % 256 ^ k := by
  induction k generalizing n with
  | zero => simp [leBytes, leNat, Nat.mod_one]
  | succ k ih =>
    simp only [leBytes, leNat, ih]
    rw [show (UInt8.ofNat (n % 256)).toNat = n % 256 from by simp, pow_succ',
      Nat.mod_mul]

theorem intBytes_length (n : ℤ) : (intBytes n).length = 4 := leBytes_length _ _
theorem f64Bytes_length (x : F64) : (f64Bytes x).length = 8 := leBytes_length _ _

/-- The range of a 32-bit `int`. -/
def IsInt (n : ℤ) : Prop := -2 ^ 31 ≤ n ∧ n < 2 ^ 31

theorem bytesInt_intBytes {n : ℤ} (h : IsInt n) : bytesInt (intBytes n) = n := by
  obtain ⟨h1, h2⟩ := h
  have e : leNat (intBytes n) = (n % 2 ^ 32).toNat := by
    rw [intBytes, leNat_leBytes]
    apply Nat.mod_eq_of_lt
    have := Int.emod_lt_of_pos n (show (0 : ℤ) < 2 ^ 32 by norm_num)
    have := Int.emod_nonneg n (show (2 ^ 32 : ℤ) ≠ 0 by norm_num)
    norm_num at *
    omega
  unfold bytesInt
  rw [e]
  norm_num at *
  by_cases hn : 0 ≤ n
  · have : n % 4294967296 = n := Int.emod_eq_of_lt hn (by omega)
    rw [this, if_pos (by omega)]; omega
  · have : n % 4294967296 = n + 4294967296 := by omega
    rw [this, if_neg (by omega)]; omega

theorem toInt32_of {n : ℤ} (h : IsInt n) : toInt32 n = n := bytesInt_intBytes h

theorem bytesF64_f64Bytes (x : F64) : bytesF64 (f64Bytes x) = x := by
  unfold bytesF64 f64Bytes
  rw [leNat_leBytes, Nat.mod_eq_of_lt (by have := x.isLt; norm_num at *; omega)]
  simp

theorem vec4Bytes_length (v : Vec4 F64) : (vec4Bytes v).length = 32 := by
  simp [vec4Bytes, f64Bytes_length]

theorem bytesVec4_vec4Bytes (v : Vec4 F64) : bytesVec4 (vec4Bytes v) = v := by
  have t (a : F64) (l : Bytes) : (f64Bytes a ++ l).take 8 = f64Bytes a :=
    List.take_left' (f64Bytes_length a)
  have d (a : F64) (l : Bytes) : (f64Bytes a ++ l).drop 8 = l := List.drop_left' (f64Bytes_length a)
  unfold bytesVec4 vec4Bytes
  rw [show (16 : ℕ) = 8 + 8 from rfl, show (24 : ℕ) = 8 + (8 + 8) from rfl]
  simp only [← List.drop_drop, t, d]
  rw [List.take_of_length_le (by rw [f64Bytes_length])]
  simp only [bytesF64_f64Bytes]

theorem arrBytes_length (l : List F64) : (arrBytes l).length = 8 * l.length := by
  induction l with
  | nil => rfl
  | cons a l ih => simp [arrBytes, ih, f64Bytes_length]; ring

theorem bytesArr_arrBytes (l : List F64) : bytesArr l.length (arrBytes l) = l := by
  induction l with
  | nil => rfl
  | cons a l ih =>
    simp only [arrBytes, List.length_cons, bytesArr]
    rw [List.take_left' (f64Bytes_length a), List.drop_left' (f64Bytes_length a), ih, bytesF64_f64Bytes]

theorem overwrite_full {old new : Bytes} (h : old.length = new.length) : overwrite old new = new := by
  unfold overwrite
  rw [List.drop_of_length_le (by omega), List.append_nil]

theorem resize_length {α : Type} (l : List α) (n : ℕ) (a : α) : (resize l n a).length = n := by
  simp [resize]; omega

end Serial

/-! ## Combinators -/
namespace Load
variable {σ τ α β : Type}

theorem bind_of_ok {x : Load σ α} {f : α → Load σ β} {o o' : σ} {s s' : IStream} {a : α}
    (h : x o s = (.ok a, o', s')) : (x >>= f) o s = f a o' s' := by
  show Load.bind x f o s = _
  unfold Load.bind; rw [h]

theorem bind_of_error {x : Load σ α} {f : α → Load σ β} {o : σ} {s : IStream} {e : Err}
    (h : (x o s).1 = .error e) : ((x >>= f) o s).1 = .error e := by
  show (Load.bind x f o s).1 = _
  unfold Load.bind
  generalize x o s = y at h ⊢
  obtain ⟨r, o', s'⟩ := y
  simp only at h; subst h; rfl

theorem bind_inv {x : Load σ α} {f : α → Load σ β} {o o'' : σ} {s s'' : IStream} {b : β}
    (h : (x >>= f) o s = (.ok b, o'', s'')) : ∃ a o' s', x o s = (.ok a, o', s') ∧ f a o' s' = (.ok b, o'', s'') := by
  change Load.bind x f o s = _ at h
  unfold Load.bind at h
  generalize x o s = y at h ⊢
  obtain ⟨r, o', s'⟩ := y
  cases r with
  | error e => simp at h
  | ok a => exact ⟨a, o', s', rfl, h⟩

/-- On the object `o`, `x` consumes exactly `b`, returns `a` and leaves `o'`; on every strict prefix of `b`
it throws. -/
structure Reads (x : Load σ α) (b : Bytes) (o : σ) (a : α) (o' : σ) : Prop where
  full : ∀ r, x o ⟨b ++ r, false⟩ = (.ok a, o', ⟨r, false⟩)
  cut : ∀ l, l <+: b → l ≠ b → (x o ⟨l, false⟩).1 = .error .throws

theorem Reads.bind {x : Load σ α} {f : α → Load σ β} {b₁ b₂ : Bytes} {o o' o'' : σ} {a : α} {c : β}
    (h₁ : Reads x b₁ o a o') (h₂ : Reads (f a) b₂ o' c o'') : Reads (x >>= f) (b₁ ++ b₂) o c o'' where
  full r := by rw [List.append_assoc, bind_of_ok (h₁.full _), h₂.full]
  cut l hl hne := by
    obtain ⟨t, ht⟩ := hl
    rcases List.append_eq_append_iff.1 ht with ⟨a', h, ht'⟩ | ⟨l', h, ht'⟩
    · by_cases ha : a' = []
      · subst ha
        rw [List.append_nil] at h
        subst h
        have := bind_of_ok (f := f) (h₁.full [])
        rw [List.append_nil] at this
        rw [this]
        refine h₂.cut [] List.nil_prefix fun hb => ?_
        rw [← hb] at hne
        exact hne (by simp)
      · exact bind_of_error (h₁.cut l ⟨a', h.symm⟩ fun e => ha (by rw [← e] at h; simpa using h))
    · subst h
      rw [bind_of_ok (h₁.full _)]
      exact h₂.cut l' ⟨t, ht'.symm⟩ fun e => hne (by rw [e])

theorem reads_pure (o : σ) (a : α) : Reads (pure a : Load σ α) [] o a o :=
  ⟨fun _ => rfl, fun _ hl hne => (hne (List.prefix_nil.1 hl)).elim⟩

theorem reads_get (o : σ) : Reads (get : Load σ σ) [] o o o :=
  ⟨fun _ => rfl, fun _ hl hne => (hne (List.prefix_nil.1 hl)).elim⟩

theorem reads_modify (f : σ → σ) (o : σ) : Reads (modify f) [] o () (f o) :=
  ⟨fun _ => rfl, fun _ hl hne => (hne (List.prefix_nil.1 hl)).elim⟩

theorem reads_lift (o : σ) {x : M α} {a : α} (h : x = .ok a) : Reads (lift x : Load σ α) [] o a o := by
  subst h
  exact ⟨fun _ => rfl, fun _ hl hne => (hne (List.prefix_nil.1 hl)).elim⟩

theorem Reads.zoom {x : Load τ α} {b : Bytes} {t : τ} {a : α} (g : σ → τ) (p : τ → σ → σ) {o : σ}
    (h : Reads x b (g o) a t) : Reads (zoom g p x) b o a (p t o) where
  full r := by unfold Load.zoom; rw [h.full]
  cut l hl hne := by
    have := h.cut l hl hne
    unfold Load.zoom
    generalize x (g o) _ = y at this ⊢
    obtain ⟨r, o', s'⟩ := y
    exact this

theorem _root_.Nurbs.Serial.IStream.read_full (b r : Bytes) : IStream.read ⟨b ++ r, false⟩ b.length = (b, true, ⟨r, false⟩) := by
  unfold IStream.read; simp

theorem _root_.Nurbs.Serial.IStream.read_short {l : Bytes} {n : ℕ} (h : l.length < n) :
    IStream.read ⟨l, false⟩ n = (l, false, ⟨[], true⟩) := by
  unfold IStream.read; simp [h]

theorem prefix_short {l b : Bytes} (hl : l <+: b) (hne : l ≠ b) : l.length < b.length := by
  rcases lt_or_eq_of_le hl.length_le with h | h
  · exact h
  · exact (hne (hl.eq_of_length h)).elim

theorem reads_read {n : ℕ} (store : Bytes → σ → σ) (b : Bytes) (o : σ) (hn : b.length = n) :
    Reads (read n store) b o () (store b o) where
  full r := by subst hn; unfold read; rw [IStream.read_full]; rfl
  cut l hl hne := by
    have := prefix_short hl hne
    unfold read; rw [IStream.read_short (by omega)]; rfl

theorem reads_intLocal {n : ℤ} (h : IsInt n) (o : σ) : Reads (readIntLocal : Load σ ℤ) (intBytes n) o n o where
  full r := by
    unfold readIntLocal
    have := IStream.read_full (intBytes n) r
    rw [intBytes_length] at this
    rw [this]; simp [bytesInt_intBytes h]
  cut l hl hne := by
    have := prefix_short hl hne
    rw [intBytes_length] at this
    unfold readIntLocal; rw [IStream.read_short (by omega)]; rfl

theorem reads_intMember (g : σ → ℤ) (p : ℤ → σ → σ) {n : ℤ} (h : IsInt n) (o : σ) :
    Reads (readIntMember g p) (intBytes n) o () (p n o) := by
  have := Reads.zoom g p (o := o) (reads_read (fun b old => bytesInt (overwrite (intBytes old) b)) (intBytes n) (g o)
    (intBytes_length n))
  rwa [overwrite_full (by rw [intBytes_length, intBytes_length]), bytesInt_intBytes h] at this

theorem reads_knots (k : KnotVector F64) (l : List F64) (hl : (l.length : ℤ) < 2 ^ 31) :
    Reads ReadKnotVectorFromStream (intBytes l.length ++ arrBytes l) k () ⟨l⟩ := by
  unfold ReadKnotVectorFromStream
  refine (reads_intLocal (n := (l.length : ℤ)) ⟨by omega, hl⟩ k).bind ?_
  rw [if_neg (by omega), Int.toNat_natCast, ← List.nil_append (arrBytes l)]
  refine (reads_modify _ k).bind ?_
  have := reads_read (fun b (k : KnotVector F64) => ⟨bytesArr l.length (overwrite (arrBytes k.Values) b)⟩) (arrBytes l)
    (⟨resize k.Values l.length 0⟩ : KnotVector F64) (arrBytes_length l)
  simp only at this
  rwa [overwrite_full (by rw [arrBytes_length, arrBytes_length, resize_length]), bytesArr_arrBytes] at this

theorem reads_vec4 (v w : Vec4 F64) : Reads ReadVec4FromStream (vec4Bytes v) w () v := by
  have := reads_read (fun b v => bytesVec4 (overwrite (vec4Bytes v) b)) (vec4Bytes v) w (vec4Bytes_length v)
  rwa [overwrite_full (by rw [vec4Bytes_length, vec4Bytes_length]), bytesVec4_vec4Bytes] at this

/-- The loop over the control points, for any way to store a list of points in the object. -/
theorem reads_points (junk : Vec4 F64) (g : σ → List (Vec4 F64)) (p : List (Vec4 F64) → σ → σ)
    (hgp : ∀ l o, g (p l o) = l) (hpp : ∀ l l' o, p l (p l' o) = p l o) (hpg : ∀ o, p (g o) o = o)
    (vs : List (Vec4 F64)) : ∀ (done rest : List (Vec4 F64)) (o : σ), g o = done ++ rest → rest.length = vs.length →
      Reads (forEach (fun _ i => zoom (fun c => (g c).getD i junk) (fun v c => p ((g c).set i v) c) ReadVec4FromStream)
        (List.range' done.length vs.length) ()) (vs.flatMap WriteVec4ToStream) o () (p (done ++ vs) o) := by
  induction vs with
  | nil =>
    intro done rest o ho hr
    have : rest = [] := List.length_eq_zero_iff.1 hr
    subst this
    rw [← ho, hpg]
    exact reads_pure o ()
  | cons v vs ih =>
    intro done rest o ho hr
    obtain _ | ⟨w, rest⟩ := rest
    · simp at hr
    simp only [List.length_cons, List.range'_succ, List.flatMap_cons, forEach]
    refine Reads.bind (f := fun b' => forEach _ _ b') (Reads.zoom _ _ (reads_vec4 v _)) ?_
    have := ih (done ++ [v]) rest (p ((g o).set done.length v) o) (by rw [hgp, ho]; simp) (by simpa using hr)
    simp only [List.length_append, List.length_cons, List.length_nil, zero_add] at this
    rw [hpp, List.append_assoc] at this
    exact this

end Load
end Nurbs
